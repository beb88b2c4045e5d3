{"id": "C01", "title": "User expressions evaluate to their mathematical value", "statement": "If a user registers a function whose text is built from decimal numbers, names of scalar/solution fields, parentheses, the binary operators + - * / ^ and the built-in one-argument functions, then evaluating that function returns the value obtained by reading the text with the usual precedence (^ over * / over + -), left to right within a level.", "quantifier": "every expression of the grammar, every nesting depth the decomposition pass limit admits, every assignment of values to the names", "why_tests_cant": "the set of expressions is infinite and the parser works by repeated textual splitting, so any finite test list misses shapes of nesting", "anchors": ["src/tools/interpreter.cpp: Interpreter::split, isScalar, isOperator", "src/managers/function/functionManager_create.hpp: decomposeFunctions", "src/managers/function/functionManager_evaluate.hpp: evaluate, evaluateOpVToV"]}
{"id": "C02", "title": "A leading minus sign negates the first term only", "statement": "An expression text '-T R', where T is the first term and R the remaining sum, evaluates to 0 - T followed by R exactly as written; a leading minus never changes the value of the later terms.", "quantifier": "every expression of the grammar preceded by '-'", "why_tests_cant": "ranges over all expressions", "anchors": ["src/tools/interpreter.cpp: Interpreter::split (prepended 0.0)"]}
{"id": "C03", "title": "Scientific-notation numbers are read as one number", "statement": "A decimal number written in scientific notation with a signed exponent (for example 1e-3) has the same value when it is a term inside a larger expression as when it stands alone.", "quantifier": "every signed-exponent literal and every surrounding expression", "why_tests_cant": "infinitely many contexts; the failure is silent (a wrong number, not an error)", "anchors": ["src/tools/interpreter.cpp: Interpreter::split, isScalar"]}
{"id": "C04", "title": "Unbalanced parentheses are rejected", "statement": "An expression that must be split at an operator and whose parentheses do not balance is rejected with an error; it never yields a value.", "quantifier": "every text with unequal numbers of opening and closing parentheses", "why_tests_cant": "all texts", "anchors": ["src/tools/interpreter.cpp: Interpreter::split"]}
{"id": "C05", "title": "Circular function definitions are rejected and acyclic ones accepted", "statement": "When the functions of a run refer to one another, set-up reports an error if the reference graph reachable from the checked function contains a cycle, and otherwise finishes without that error.", "quantifier": "every finite reference graph", "why_tests_cant": "cycles of any length through any nodes", "anchors": ["src/managers/function/functionManager_create.hpp: checkDepDataType", "src/tools/dag.hpp"]}
{"id": "C06", "title": "A function is treated as constant only if its value cannot vary", "statement": "After set-up, a function flagged as constant depends, through any chain of references, only on constant leaves; equivalently a function with any field, parameter or space/time dependent leaf is never flagged constant.", "quantifier": "every acyclic reference graph and every classification of its leaves", "why_tests_cant": "all graphs", "anchors": ["src/managers/function/functionManager_create.hpp: checkDepDataType"]}
{"id": "C07", "title": "First registration of a function name wins, per location", "statement": "Registering a function name a second time at the same location never changes the expression that is evaluated, registering at one location never affects another, and a lookup reports a name as known exactly when it was registered at that location.", "quantifier": "every sequence of registrations over every set of names and the known locations", "why_tests_cant": "all histories", "anchors": ["src/managers/function/functionManager_create.hpp: addFunction", "src/managers/function/functionManager_util.hpp: hasFunction"]}
{"id": "C08", "title": "Element-wise reductions compute the maximum, minimum and mean", "statement": "The built-in reductions emax, emin and emean of a field over the points of an element return the maximum, minimum and arithmetic mean of the values at those points.", "quantifier": "every element, every number of points, every field", "why_tests_cant": "a wrong running comparison is only visible for particular value orders", "anchors": ["src/managers/function/functionManager_evaluate.hpp: evaluateOpVToV (emax, emin, emean)"]}
{"id": "C09", "title": "A stored state is read back unchanged", "statement": "After a state is stored at a time in the forward/adjoint state storage, extracting at that time returns the most recently stored state for that time, and states stored at other (distinguishable) times are unaffected.", "quantifier": "every sequence of store operations on increasing or repeated times", "why_tests_cant": "all histories of stores", "anchors": ["src/tools/solutionStorage.hpp: SolutionStorage::store, extract"]}
{"id": "C10", "title": "Previous/next state extraction returns the neighbouring time", "statement": "Extracting the previous (next) state relative to a stored time returns the state stored one slot before (after) it, and reports absence at the ends.", "quantifier": "every storage content and query time", "why_tests_cant": "all histories", "anchors": ["src/tools/solutionStorage.hpp: extractPrevious, extractNext"]}
{"id": "C11", "title": "Compressed per-element data is read back unchanged", "statement": "A compressed view built from a small table of unique entries and an index per element returns for every element exactly the entry that the uncompressed array would hold.", "quantifier": "every table, index map and element", "why_tests_cant": "all shapes", "anchors": ["src/tools/compressedView.hpp: CompressedView"]}
{"id": "C12", "title": "Sparse local matrices lose only entries below the tolerance", "statement": "The sparse form of the local matrices keeps the exact value of every entry whose magnitude relative to the largest one exceeds the tolerance and stores nothing else, so that the sparse matrix-vector product differs from the dense one only by the dropped entries.", "quantifier": "every dense array, tolerance and vector", "why_tests_cant": "all arrays", "anchors": ["src/tools/sparse3DView.hpp: Sparse3DView"]}
{"id": "C13", "title": "Nearest data point lookup returns a closest point", "statement": "Looking up data for a physical location returns data of a grid point whose distance to the location is minimal, and the first one in storage order among equals.", "quantifier": "every point cloud and every query location", "why_tests_cant": "all clouds", "anchors": ["src/tools/data.cpp: Data::findClosestPoint, findClosestGridPoint"]}
{"id": "C14", "title": "Samples are divided over processes without loss or duplication", "statement": "When N samples are distributed over P processes every sample is owned by exactly one process, and the loads of any two processes differ by at most one.", "quantifier": "every N and every P >= 1", "why_tests_cant": "all sizes", "anchors": ["src/optimization/MrHyDE_Sample_Set_Reader.hpp"]}
{"id": "C15", "title": "Splitting the communicator assigns every rank consistently", "statement": "When the world communicator is split into groups, every rank belongs to exactly one linear-algebra group, the groups partition the ranks and have the requested number of processes, and ranks with the same position in their group form the sampling communicator.", "quantifier": "every number of ranks and every requested group size", "why_tests_cant": "all sizes, including non divisible ones", "anchors": ["src/tools/split_mpi_communicators.cpp: SplitComm"]}
{"id": "C16", "title": "UQ statistics are the sample statistics", "statement": "The reported mean lies between the smallest and largest sample, the reported variance is non-negative and is the unbiased sample variance, and every reported probability is the fraction of the samples below the level, lies in [0,1] and does not decrease with the level.", "quantifier": "every non-empty sample set and every list of thresholds", "why_tests_cant": "all samples", "anchors": ["src/managers/uq/uqManager.cpp: computeMean, computeVariance, computeStatistics"]}
{"id": "C17", "title": "Truncated expansion roots are distinct and not more than requested", "statement": "The root search for the Karhunen-Loeve expansion returns at most the requested number of roots and any two returned roots differ by at least the merge tolerance.", "quantifier": "every characteristic function and search interval", "why_tests_cant": "all sequences of candidate roots", "anchors": ["src/tools/klexpansion.hpp"]}
{"id": "C18", "title": "Field names are classified by their suffix", "statement": "A requested solution field 'v' of a variable with derivative suffix grad(..)[.], div(..), curl(..)[.] or _t is classified as gradient, divergence, curl or time derivative exactly when the request has that form, whatever the name of the variable.", "quantifier": "every variable name and suffix", "why_tests_cant": "all names", "anchors": ["src/tools/fields.hpp: SolutionField"]}
{"id": "C19", "title": "BDF weights are exact to their order", "statement": "For each supported BDF order k, the derivative formula applied to any polynomial of degree at most k sampled at equally spaced times gives the exact derivative at the new time.", "quantifier": "every polynomial of degree <= k, every step size and time, k = 1..6", "why_tests_cant": "all polynomials", "anchors": ["src/managers/solver/solverManager_setup.hpp: setBackwardDifference"]}
{"id": "C20", "title": "Built-in Butcher tableaux are consistent", "statement": "Every built-in Butcher tableau has weights summing to one, row sums equal to the abscissae, and satisfies the order conditions of its advertised order.", "quantifier": "every built-in tableau name", "why_tests_cant": "a table typo gives a converging run of lower order, which a tolerance based regression test does not see", "anchors": ["src/managers/solver/solverManager_setup.hpp: setButcherTableau"]}
{"id": "C21", "title": "Stage reconstruction and final update give the Runge-Kutta step", "statement": "If every stage solution satisfies the stage residual equation built by the workset, then the state after the step equals u_n + dt * sum b_i k_i with k_i the slopes of the Runge-Kutta method of the chosen tableau at the proper stage times.", "quantifier": "every diagonally implicit/explicit tableau with non-zero weights, every right-hand side function, every state", "why_tests_cant": "all right-hand sides", "anchors": ["src/tools/workset.cpp: computeSolnTransientSeeded", "src/managers/solver/solverManager_solvers.hpp: transientSolver"]}
{"id": "C22", "title": "Transient integration reaches the final time", "statement": "With a positive step and every step converging, the transient loop terminates, visits strictly increasing times spaced by the step size, never starts a step at or after the final time (up to the tolerance), and ends within one step of the final time.", "quantifier": "every start time, final time and positive step", "why_tests_cant": "all step counts", "anchors": ["src/managers/solver/solverManager_solvers.hpp: transientSolver"]}
{"id": "C23", "title": "Multistep history holds the last accepted solutions", "statement": "At the start of each accepted step the k-th history slot holds the solution accepted k steps before, also when a step failed and was repeated with a smaller step.", "quantifier": "every sequence of accepted and failed steps, every history length", "why_tests_cant": "all histories of failures", "anchors": ["src/managers/solver/solverManager_solvers.hpp: transientSolver (sol_prev shift)"]}
{"id": "C24", "title": "The nonlinear solver reports failure when it did not converge", "statement": "The nonlinear solver terminates after at most the maximal number of iterations, and whenever it stops without meeting the requested residual tolerance it reports failure on every process.", "quantifier": "every sequence of residual norms, every tolerance and iteration limit", "why_tests_cant": "all residual histories", "anchors": ["src/managers/solver/solverManager_solvers.hpp: nonlinearSolver"]}
{"id": "C25", "title": "Backtracking shortens the Newton step by the reported factor", "statement": "After k backtracking reductions the accumulated update applied to the solution is exactly 2^-k times the Newton increment and the solver never steps past the full increment.", "quantifier": "every number of reductions, every state and increment", "why_tests_cant": "all histories", "anchors": ["src/managers/solver/solverManager_solvers.hpp: nonlinearSolver (backtracking)"]}
{"id": "C26", "title": "The conjugate gradient solver keeps the true residual", "statement": "In the built-in preconditioned conjugate gradient loop the recursively updated residual equals b - A x for the current iterate at every iteration, and the loop performs at most the maximal number of iterations.", "quantifier": "every linear operator, right-hand side, preconditioner, iteration count", "why_tests_cant": "all operators", "anchors": ["src/managers/solver/solverManager_util.hpp: PCG"]}
{"id": "C27", "title": "Active parameter vectors round-trip", "statement": "Updating the active parameters from a vector and reading them back gives the same vector, and parameters of other types keep their values.", "quantifier": "every set of parameters, types and vectors of matching length", "why_tests_cant": "all configurations", "anchors": ["src/managers/parameter/parameterManager_update.hpp: updateParams", "src/managers/parameter/parameterManager_access.hpp: getParams"]}
{"id": "C28", "title": "Each active parameter component has its own derivative slot", "statement": "When sensitivities are computed every component of every active parameter is seeded in a derivative slot of its own, the slots used are 0..n-1, and inactive parameters carry no derivative.", "quantifier": "every parameter list", "why_tests_cant": "all configurations", "anchors": ["src/managers/parameter/parameterManager_sacadoize.hpp: sacadoizeParams"]}
{"id": "C29", "title": "Discretized parameter time derivatives are difference quotients", "statement": "For a time-dependent discretized parameter the time derivative used at time index i > 0 is (p_i - p_{i-1})/dt, and zero at index 0.", "quantifier": "every sequence of parameter states and every index", "why_tests_cant": "all histories", "anchors": ["src/managers/parameter/parameterManager_update.hpp: updateDynamicParams", "src/managers/parameter/parameterManager_access.hpp: getDiscretizedParamsDot"]}
{"id": "C30", "title": "Optimization vectors obey the vector-space and inner-product laws", "statement": "plus, scale, axpy, zero, set on the combined (scalar and field, time indexed) optimization vector act componentwise, and dot is symmetric, bilinear and non-negative on the diagonal with norm(x)^2 = dot(x,x).", "quantifier": "every vector shape and content", "why_tests_cant": "all vectors", "anchors": ["src/optimization/MrHyDE_OptVector.hpp"]}
{"id": "C31", "title": "The gradient is computed at the requested point", "statement": "gradient(x) of the reduced objective uses the state that solves the forward problem for x, after every sequence of earlier value and gradient calls.", "quantifier": "every history of calls with every sequence of points", "why_tests_cant": "call histories", "anchors": ["src/optimization/MrHyDE_Objective.hpp: value, gradient, checkNewParams"]}
{"id": "C32", "title": "The stochastic gradient is computed at the requested point and sample", "statement": "gradient(x, s) of the sampled objective uses the state that solves the forward problem for parameters x and sample s, after every sequence of earlier calls.", "quantifier": "every history of calls over every set of samples", "why_tests_cant": "call histories", "anchors": ["src/optimization/MrHyDE_Stochastic_Objective.hpp"]}
{"id": "C33", "title": "Element groups cover each element exactly once", "statement": "Whatever the partitioning mode, every element of a block belongs to exactly one assembly group, no group exceeds the requested workset size, and in the subgrid-preserving mode all elements of a group have the same boundary signature.", "quantifier": "every number of elements, workset size >= 1 and boundary signature", "why_tests_cant": "all meshes", "anchors": ["src/managers/assembly/assemblyManager_groups.hpp: createGroups"]}
{"id": "C34", "title": "Boundary groups cover each side exactly once and share a local side", "statement": "For every named side, each of its element sides belongs to exactly one boundary group and all members of a boundary group have the same local side number.", "quantifier": "every list of element sides and group size >= 1", "why_tests_cant": "all meshes", "anchors": ["src/managers/assembly/assemblyManager_groups.hpp: createGroups"]}
{"id": "C35", "title": "Assembly does not depend on the order of elements", "statement": "The assembled residual and Jacobian equal the sum over elements of the local contributions, independently of the order in which elements and groups are processed.", "quantifier": "every mesh, local contribution and processing order (schedule)", "why_tests_cant": "all schedules", "anchors": ["src/managers/assembly/assemblyManager_scatter.hpp: scatter, scatterRes, scatterJac"]}
{"id": "C36", "title": "Constrained degrees of freedom get identity rows and zero residual", "statement": "After assembly and application of the constraints, a strongly constrained degree of freedom has residual zero, diagonal entry one and zero off-diagonal entries in its row, and rows of other degrees of freedom are unaffected by the constraint.", "quantifier": "every mesh, constraint set and local contribution", "why_tests_cant": "all meshes", "anchors": ["src/managers/assembly/assemblyManager_scatter.hpp: scatter", "src/managers/assembly/assemblyManager_constraints.hpp: createConstraints, dofConstraints, setJacobianConstraints"]}
{"id": "C37", "title": "Lumping keeps row sums and is diagonal", "statement": "With mass lumping the assembled matrix is diagonal and each diagonal entry is the sum of the corresponding row of the consistent matrix, for the Jacobian as well as for the boundary projection.", "quantifier": "every mesh and local matrix", "why_tests_cant": "all meshes", "anchors": ["src/managers/assembly/assemblyManager_scatter.hpp: scatter (lump_mass)", "src/managers/assembly/assemblyManager_constraints.hpp: computeConstraintProjection"]}
{"id": "C38", "title": "Gather restricts the global vector to the elements", "statement": "Gathering puts into the local data of each element exactly the entries of the global vector at that element's degrees of freedom, so that gather followed by evaluation never mixes elements.", "quantifier": "every mesh, offsets table and vector", "why_tests_cant": "all meshes", "anchors": ["src/managers/assembly/assemblyManager_gather.hpp: performGather"]}
{"id": "C39", "title": "The basis database maps each element to an equivalent representative", "statement": "When the basis database is used, every element is assigned a stored representative that exists, has the same orientation and matches its measure and Jacobian within the tolerance, and the representatives themselves are assigned to themselves.", "quantifier": "every list of elements and tolerance", "why_tests_cant": "all meshes", "anchors": ["src/managers/assembly/assemblyManager_database.hpp: identifyVolumetricDatabase, identifyBoundaryDatabase"]}
{"id": "C40", "title": "Subgrid model selection picks an admissible model and partitions the groups", "statement": "In multiscale runs with several subgrid models, the model used for each element group is one declared for the block of the group; with user-defined usage it is one with the most votes of the usage functions; with trained predictors it is the first model accepted for all elements of the group (the last if none is); with hierarchical selection it is the first whose result is within the tolerance of the model before; and each group is active in exactly one model.", "quantifier": "every list of models, usage functions, predictions, tolerances and groups", "why_tests_cant": "All outcomes of indicators on all groups are not enumerable; small meshes have one full group.", "anchors": ["src/managers/multiscale/multiscaleManager.cpp: update, initialize, evaluateMacroMicroMacroMap", "src/managers/assembly/assemblyManager_util.hpp: identifySubgridModels"]}
{"id": "C41", "title": "Solution fields at integration points are never stale", "statement": "After the local solution changes and the fields are reset, a request for a field returns the value computed from the current local solution; repeated requests return the same value without changing it.", "quantifier": "every sequence of updates, resets and requests", "why_tests_cant": "histories", "anchors": ["src/tools/workset.cpp: getSolutionField, evaluateSolutionField, resetSolutionFields"]}
{"id": "C42", "title": "Variable lookup terminates and finds exactly the listed names", "statement": "Asking whether a name is a variable or a discretized parameter terminates and answers yes exactly when the name is in the list, giving its position.", "quantifier": "every list of names and every query", "why_tests_cant": "all lists", "anchors": ["src/tools/workset.cpp: isVar, isParameter"]}
{"id": "C43", "title": "A function that names a parameter can be used by other functions", "statement": "If the whole text of a function f is the name of a parameter, then every other function that refers to f evaluates with the current value of that parameter, whatever was evaluated before.", "quantifier": "every set of functions and parameters, every history of evaluations and parameter values", "why_tests_cant": "The stale value depends on the history of evaluations and on how the functions refer to each other; a test sees one history and one reference chain.", "anchors": ["src/managers/function/functionManager_evaluate.hpp: evaluate", "src/tools/dag.hpp: Tree::updateVista"]}
{"id": "C44", "title": "Comparisons with equality keep their meaning inside sums", "statement": "The comparison a<=b (a>=b) has the value one exactly when a is at most (at least) b, also when the comparison is part of a larger expression.", "quantifier": "every expression text that contains <= or >=", "why_tests_cant": "The results differ only where both sides are equal and only inside a sum; random tests on floating-point data almost never hit equality.", "anchors": ["src/tools/interpreter.cpp: Interpreter::split"]}
{"id": "C45", "title": "Spaces in an expression have no effect", "statement": "Removing the spaces from the text of a function never changes whether it is accepted nor its value.", "quantifier": "every expression text and every placement of spaces", "why_tests_cant": "Spaces are dropped only while splitting at some operators; whether a text is affected depends on the operators around the space at every depth.", "anchors": ["src/tools/interpreter.cpp: Interpreter::split"]}
{"id": "C46", "title": "Unknown names and functions are rejected", "statement": "A function text that uses a name or a function that is not known to the run is rejected with an error at set-up; it never yields a value.", "quantifier": "every text and every set of known names", "why_tests_cant": "The set of unknown names is infinite, and acceptance depends on the shape of the text around the name.", "anchors": ["src/tools/interpreter.cpp: Interpreter::split, isOperator", "src/managers/function/functionManager_create.hpp: decomposeFunctions"]}
{"id": "C47", "title": "Rejection sampling accepts by ratio", "statement": "Rejection sampling makes one decision per sample: it accepts a sample exactly when its random number times the largest ratio does not exceed its own ratio, so a sample with the largest ratio is always accepted, and if all ratios vanish none is accepted.", "quantifier": "every list of ratios and random numbers", "why_tests_cant": "all ratios and random streams", "anchors": ["src/managers/uq/uqManager.cpp: UQManager::rejectionSampling"]}
{"id": "C48", "title": "Stochastic parameters are drawn from the requested distribution", "statement": "A parameter declared Gaussian with a mean and a variance is sampled with that mean and with the square root of that variance as standard deviation, whichever sampling call is used.", "quantifier": "every mean and variance", "why_tests_cant": "random numbers hide the error", "anchors": ["src/managers/uq/uqManager.cpp: UQManager::generateSamples (two overloads)"]}
{"id": "C49", "title": "Time integration settings given for all physics sets apply to every set that does not override them", "statement": "The multistep order and Butcher tableau used by a physics set are those of the set's own solver list if given there, otherwise those of the global solver list; an order above one is only accepted with implicit Euler or a custom tableau.", "quantifier": "every global list, every set list, every set name", "why_tests_cant": "all combinations of given and missing entries", "anchors": ["src/managers/solver/solverManager_construct.hpp: SolverManager::SolverManager", "src/interfaces/physics/physicsInterface_construct.hpp: set_names"]}
{"id": "C50", "title": "Strongly prescribed values are exact after every time step", "statement": "After a time step, a degree of freedom with strongly prescribed data holds the data at the new time, for every time integrator.", "quantifier": "every tableau, every data function of time, every time and step", "why_tests_cant": "all data functions and tableaux", "anchors": ["src/managers/solver/solverManager_util.hpp: setDirichlet", "src/managers/solver/solverManager_solvers.hpp: transientSolver"]}
{"id": "C51", "title": "Every transient solve uses the same sequence of integrators", "statement": "Each transient solve starts a multistep method with the start-up integrator for the requested number of steps and then uses the main one, so that repeated solves with the same data give the same trajectory.", "quantifier": "every choice of start-up and main integrator, every number of steps, repeated solves", "why_tests_cant": "depends on what was solved before", "anchors": ["src/managers/solver/solverManager_construct.hpp: SolverManager::SolverManager", "src/managers/solver/solverManager_solvers.hpp: transientSolver"]}
{"id": "C52", "title": "Seeding for differentiation never changes values and gives exact derivatives", "statement": "Whatever is seeded (the stage solution, a previous solution, an earlier stage, or nothing) the solution and its time derivative have the same values, all derivative slots but the one of the degree of freedom are zero, and the derivative in that slot is the exact rate of change.", "quantifier": "every tableau, multistep method, step, stage, seed selection, slot and data", "why_tests_cant": "all tableaux and data", "anchors": ["src/tools/workset.cpp: computeSolnTransientSeeded"]}
{"id": "C53", "title": "Time-dependent parameters follow the solver's time steps", "statement": "In a transient solve with time-dependent parameters every time step the solver takes has its own parameter state, and the time derivative of a parameter is the difference quotient with the solver's step size.", "quantifier": "every initial and final time, every combination of given step size and number of steps, every pattern of failed steps", "why_tests_cant": "all step sizes and failure patterns; the two managers read the same input independently", "anchors": ["src/managers/parameter/parameterManager_construct.hpp: ParameterManager::ParameterManager", "src/managers/parameter/parameterManager_update.hpp: updateDynamicParams", "src/managers/solver/solverManager_construct.hpp: SolverManager::SolverManager"]}
{"id": "C54", "title": "The derivative type holds every active parameter and element unknown", "statement": "The number of derivative slots chosen at start-up is at least the number of active scalar parameters and at least the number of unknowns of an element in every block.", "quantifier": "every number of active parameters, every list of blocks with their unknown counts, every solver mode", "why_tests_cant": "all block and parameter counts and solver modes", "anchors": ["src/managers/assembly/assemblyManager_construct.hpp: AssemblyManager::AssemblyManager", "src/managers/parameter/parameterManager_sacadoize.hpp: sacadoizeParams"]}
{"id": "C55", "title": "The dual of an optimisation vector represents the inner product with it", "statement": "Applying the dual of a vector to another vector gives the inner product of the two, for scalar and discretized parameters, with and without mass weights.", "quantifier": "every pair of vectors of the same space, every mass and scale", "why_tests_cant": "all vectors and weights", "anchors": ["src/optimization/MrHyDE_OptVector.hpp: dual, apply, dot"]}
{"id": "C56", "title": "After an optimisation the parameters are the optimiser's result", "statement": "The parameters written to file and used for the final output after an optimisation are the point the optimiser returned.", "quantifier": "every history of value and gradient requests", "why_tests_cant": "depends on which trial points are rejected last", "anchors": ["src/managers/analysis/analysisManager_solve.hpp: ROLSolve, ROL2Solve", "src/optimization/MrHyDE_Objective.hpp: value, gradient"]}
{"id": "C57", "title": "Sums over batches include every component", "statement": "Summing an optimisation vector over all batches of samples gives the sum of all inputs in every entry, for every number of time levels.", "quantifier": "every number of batches, every number and size of components", "why_tests_cant": "all sizes, batch counts and time levels", "anchors": ["src/optimization/MrHyDE_TeuchosBatchManager.hpp: sumAll"]}
{"id": "C58", "title": "Boundary groups use the geometry of their own elements", "statement": "For every element block, the sides grouped on a boundary are integrated with the nodes and orientations of the elements that own those sides.", "quantifier": "every list of blocks, every side set, every element numbering", "why_tests_cant": "depends on the block order and on all element numbers; single-block tests hide it", "anchors": ["src/managers/assembly/assemblyManager_groups.hpp: createGroups (boundary part)", "src/interfaces/discretization/discretizationInterface_util.hpp", "src/interfaces/discretization/discretizationInterface_basis.hpp"]}
{"id": "C61", "title": "The adjoint matrix is the transpose of the forward matrix", "statement": "Assembling with the adjoint flag gives, between unknowns that are not prescribed, the transpose of the matrix assembled without it, whatever memory-saving path and number of threads are used.", "quantifier": "every mesh, element contribution, number of workers and schedule", "why_tests_cant": "two separate code paths, all schedules", "anchors": ["src/managers/assembly/assemblyManager_jacres.hpp: assembleJacRes, updateJac", "src/managers/assembly/assemblyManager_scatter.hpp: scatter, scatterJac"]}
{"id": "C62", "title": "Fixing zero rows only touches zero rows", "statement": "With the option that repairs zero rows of the matrix, exactly the rows of the finished matrix that are zero up to the tolerance get a unit diagonal; every other entry is the assembled one.", "quantifier": "every mesh, any number of blocks, every tolerance", "why_tests_cant": "needs meshes whose blocks do not all touch a row", "anchors": ["src/managers/assembly/assemblyManager_jacres.hpp:609-628"]}
{"id": "C64", "title": "Disabled volume terms contribute nothing", "statement": "If volume (and face) terms are switched off for a block, the assembled residual is that of the boundary terms alone.", "quantifier": "every history of assemblies, every number of groups", "why_tests_cant": "the effect depends on what was assembled before", "anchors": ["src/managers/assembly/assemblyManager_jacres.hpp:365-414,810-834", "src/managers/assembly/assemblyManager_workset.hpp:688,973"]}
{"id": "C65", "title": "Derivatives with respect to an older step include the boundary terms' dependence on that step", "statement": "In a transient run, assembling the derivative of the residual with respect to the solution k steps back returns, for volume and boundary terms alike, the derivative of the discrete residual with respect to that stored solution.", "quantifier": "every time integrator, every k, every residual, every history", "why_tests_cant": "Tests run forward solves, in which this derivative is never assembled; the error needs multistep history, an adjoint and a boundary term at once.", "anchors": ["src/managers/assembly/assemblyManager_jacres.hpp:177-192,380,523", "src/managers/assembly/assemblyManager_workset.hpp:workset updateWorksetBoundary", "src/tools/workset.cpp:727-765"]}
{"id": "C66", "title": "Sensitivity with respect to discretised parameters contains only parameter derivatives", "statement": "When sensitivities with respect to discretised parameters are requested, no derivative with respect to the state enters the assembled matrix, at any stage of the time integrator.", "quantifier": "every tableau, every stage, every state", "why_tests_cant": "Single-stage integrators never show it; needs a multi-stage method with a discretised parameter.", "anchors": ["src/managers/assembly/assemblyManager_jacres.hpp:182", "src/tools/workset.cpp:727-765,934-968"]}
{"id": "C68", "title": "The system that projects boundary data holds the boundary mass matrix", "statement": "The matrix built for the projection of strongly prescribed data has, in rows of prescribed unknowns, the boundary mass matrix (its row sums on the diagonal, if lumping is asked for), the identity in every other row, and the right-hand side holds the integrals of the data in the prescribed rows and zero elsewhere.", "quantifier": "every mesh, every set of prescribed unknowns, with and without lumping", "why_tests_cant": "Whether a lumped row lands on the diagonal depends on the numbering of the unknowns of each side; a test checks one mesh.", "anchors": ["src/managers/assembly/assemblyManager_constraints.hpp:144-235"]}
{"id": "C67", "title": "The transient gradient is the gradient of the recorded objective", "statement": "After a forward run, the adjoint run returns, for every scalar parameter, the derivative of the discrete objective (sum over recorded steps of step size times integrand) with respect to that parameter through the discrete equations that the forward run solved.", "quantifier": "every time integrator, every number of steps, every sequence of step sizes, every linearisation, every change of the parameters", "why_tests_cant": "Finite-difference tests check one problem with one integrator and uniform steps; the claim is about all integrators and step histories.", "anchors": ["src/managers/solver/solverManager_solvers.hpp:194-283,442-596", "src/managers/postprocess/postprocessManager_objective_gradient.hpp:1128-1203,1509-1617"]}
{"id": "C69", "title": "Transient sensitivities of discretised parameters are evaluated at the recorded states", "statement": "In a transient run, the derivative of the residual with respect to discretised parameters that enters the gradient is evaluated, on every element, with the state and the time derivative of that element at that step.", "quantifier": "every mesh and grouping of elements, every integrator, every recorded history", "why_tests_cant": "A residual in which the parameter does not multiply a time derivative, or a mesh with one group, hides it.", "anchors": ["src/managers/postprocess/postprocessManager_objective_gradient.hpp:1665-1725", "src/managers/assembly/assemblyManager_jacres.hpp:208-211", "src/managers/assembly/assemblyManager_gather.hpp:22-25"]}
{"id": "C70", "title": "The load balancing factor is the ratio of largest to smallest cost", "statement": "The load balancing factor printed at the start and at each step of a multiscale run is the largest estimated cost of a process divided by the smallest, where the cost of a process is the sum over its element groups of cost estimate times number of elements.", "quantifier": "every number of processes, every distribution of costs", "why_tests_cant": "Tests do not check the printed number, and one process has factor one.", "anchors": ["src/managers/solver/solverManager_setup.hpp:789-799", "src/managers/multiscale/multiscaleManager.cpp:230-270,844-852"]}
{"id": "C71", "title": "Subgrid model selection looks at the group's own state", "statement": "Usage functions and inputs of the trained predictors for an element group are evaluated with the state on the elements of that group.", "quantifier": "every mesh and grouping of elements, every state, every usage function", "why_tests_cant": "A usage function of coordinates only, or a block with one group, hides it.", "anchors": ["src/managers/assembly/assemblyManager_util.hpp:293-361", "src/managers/multiscale/multiscaleManager.cpp:464,1239-1320"]}
{"id": "C72", "title": "The reported objective is the time integral of the misfits plus the regularisations", "statement": "For every objective the value reported after a forward run is the time integral over the recorded steps (for sensors: the sum over the measured times) of the weighted misfit, plus the time integral of the weighted regularisations, summed over all processes and counted once.", "quantifier": "every type of objective, every list of regularisations, every number of processes, steps, groups, elements and points, every state", "why_tests_cant": "Regression tests compare the objective with numbers from an earlier run of the same code, for single combinations.", "anchors": ["src/managers/postprocess/postprocessManager_objectives.hpp:14-640", "PostprocessManager::computeObjective", "PostprocessManager::reportObjective"]}
{"id": "C73", "title": "The explicit parameter derivative of the adjoint run is that of the reported objective", "statement": "What an adjoint run adds to the gradient for the explicit dependence of the objective on a scalar parameter is the derivative of the reported objective with respect to that parameter at fixed states, on every process.", "quantifier": "every type of objective, every list of regularisations, every number of processes and steps, every parameter", "why_tests_cant": "A finite difference test covers one objective, one parameter and mostly one process.", "anchors": ["src/managers/postprocess/postprocessManager_objective_gradient.hpp:27-945", "PostprocessManager::computeObjectiveGradParam", "PostprocessManager::computeSensitivities"]}
{"id": "C74", "title": "Each sensor measurement is compared at its own time only", "statement": "With sensors, the objective is the sum over the recorded steps of the weighted squared differences between the response at that step and the measurements made at its time; steps without measurement add nothing; the explicit derivative uses the same pairs.", "quantifier": "every list of measurement times and data, every sequence of steps, with and without the option to compute responses", "why_tests_cant": "Tests use measurements generated by the same run at its own times, where the differences vanish.", "anchors": ["src/managers/postprocess/postprocessManager_objectives.hpp:290-436", "src/managers/postprocess/postprocessManager_objective_gradient.hpp:540-681", "src/managers/solver/solverManager_solvers.hpp:256-274"]}
{"id": "C75", "title": "Explicit derivatives are evaluated at the state of each group", "statement": "The explicit derivative of an integrated control or response with respect to a scalar parameter is the sum over the element groups of the integral of the partial derivative, evaluated with the state of that group, the state held fixed.", "quantifier": "every function of parameter and state, every list of groups and states, every earlier content of the workspace", "why_tests_cant": "It depends on what an earlier evaluation left in the workspace; responses that do not depend on parameters should have zero derivative and are not tested for it.", "anchors": ["src/managers/postprocess/postprocessManager_objective_gradient.hpp:195-246,375-427", "src/managers/assembly/assemblyManager_workset.hpp:877-882"]}
{"id": "C76", "title": "Explicit derivatives with respect to discretised parameters are elementwise", "statement": "The explicit derivative with respect to a degree of freedom of a discretised parameter is the sum over the elements containing it of the derivative of the integral over that element, however the elements are grouped.", "quantifier": "every grouping of elements, every numbering of parameter degrees of freedom, controls, responses and regularisations", "why_tests_cant": "Groups of a single element, or parameters constant over a group of equal elements, give plausible numbers.", "anchors": ["src/managers/postprocess/postprocessManager_objective_gradient.hpp:249-312,450-512,780-900"]}
{"id": "C59", "title": "Point conditions constrain exactly the nodes of the node sets asked for", "statement": "For a variable with a list of point conditions, the constrained degrees of freedom are those of that variable at the nodes of the node sets named, on every process that knows them.", "quantifier": "every mesh, numbering, distribution over processes and blocks, every list of node sets", "why_tests_cant": "Tests pin one corner node that lies in a single element of a single block.", "anchors": ["src/interfaces/discretization/discretizationInterface_dof.hpp:530-619", "DiscretizationInterface::setBCData"]}
{"id": "C60", "title": "All parts of the code see the same boundary condition", "statement": "For a variable on a side set, the boundary label used for the terms, the side information used by subgrid models, and the strong constraints mean the same condition.", "quantifier": "every set of input sections, with weak and strong Dirichlet conditions, scalar and vector bases", "why_tests_cant": "Inputs with several conditions for one variable and side set (for instance through `all boundaries`) are too many, and run without message.", "anchors": ["src/interfaces/discretization/discretizationInterface_dof.hpp:417-528,664-723"]}
{"id": "C77", "title": "Strong Dirichlet conditions constrain exactly the closure of their sides", "statement": "The degrees of freedom of a variable that are constrained strongly are exactly those in the closure of the sides of the side sets with a Dirichlet condition for it (by name, for all boundaries, or by component for vector bases); each is listed once; none if conditions are weak.", "quantifier": "every mesh, numbering and input", "why_tests_cant": "It is a set equality over all meshes and inputs.", "anchors": ["src/interfaces/discretization/discretizationInterface_dof.hpp:642-735", "DiscretizationInterface::setDirichletData"]}
{"id": "C63", "title": "Side basis functions read through the basis database are those of the element", "statement": "With the basis database switched on, the values and gradients of the basis functions on a boundary side are those of that side's own element, up to the tolerance of the database.", "quantifier": "every mesh, grouping, basis and side", "why_tests_cant": "The claim ranges over all meshes and all sides; tests run with boundary terms that use no gradients.", "anchors": ["src/managers/assembly/assemblyManager_database.hpp:1041-1118", "AssemblyManager::buildBoundaryDatabase", "src/tools/boundaryGroup.cpp:164-168", "src/managers/assembly/assemblyManager_workset.hpp:854-857"]}
{"id": "C78", "title": "Matrix-free mass products agree for all storage options", "statement": "The product of the mass matrix with a vector, applied element by element, is the same whether element masses are stored, recomputed or taken from the database, and equals the product with the assembled mass matrix.", "quantifier": "every mesh, block structure, numbering, weights and vector", "why_tests_cant": "It relates three code paths on all inputs.", "anchors": ["src/managers/assembly/assemblyManager_mass.hpp:555-745", "AssemblyManager::applyMassMatrixFree"]}
{"id": "C79", "title": "The mass matrix represents the weighted inner product of finite element functions", "statement": "For coefficient vectors x and z, z'Mx equals the quadrature of the weighted inner product of the two finite element functions; with non-negative weights x'Mx is not negative.", "quantifier": "every mesh, vector- and scalar-valued bases, quadrature, weights and vectors", "why_tests_cant": "It is an identity between an algebraic and an integral quantity for all vectors.", "anchors": ["src/managers/assembly/assemblyManager_mass.hpp:13-275", "src/managers/assembly/assemblyManager_mass.hpp:1065-1140", "AssemblyManager::getMass", "AssemblyManager::getWeightedMass"]}
{"id": "C80", "title": "The lumped mass is the row sum of the mass matrix", "statement": "The diagonal used for explicit steps with lumped mass is the row sum of the mass matrix, whatever the storage of the element masses.", "quantifier": "every mesh, numbering and element matrices", "why_tests_cant": "Differences show only for element matrices with negative entries, which depend on basis and mesh.", "anchors": ["src/managers/assembly/assemblyManager_mass.hpp:13-275", "AssemblyManager::getWeightedMass"]}
{"id": "C81", "title": "The assembled mass matrix does not depend on the storage of element masses", "statement": "The assembled mass matrix is the same whether element masses are stored, recomputed, taken from the database, or kept in sparse form.", "quantifier": "every mesh, numbering, weights and storage option", "why_tests_cant": "It relates all storage options on all inputs.", "anchors": ["src/managers/assembly/assemblyManager_mass.hpp:13-275", "src/managers/assembly/assemblyManager_database.hpp:740-925", "AssemblyManager::getWeightedMass"]}
{"id": "C82", "title": "Objective value and gradient count the same recorded steps", "statement": "For a transient run, the steps and step weights which enter the reported objective are the ones which enter its gradient, whatever the write frequency and the recording window.", "quantifier": "all write frequencies, recording windows, numbers of steps and step sizes", "why_tests_cant": "the value and the gradient are computed by different code in runs in opposite directions; a test fixes one frequency and one window, usually the defaults, for which the two agree", "anchors": ["src/managers/postprocess/postprocessManager_util.hpp: record", "src/managers/postprocess/postprocessManager_objectives.hpp: reportObjective", "src/managers/postprocess/postprocessManager_objective_gradient.hpp: computeObjectiveGradState, computeObjectiveGradParam", "src/managers/solver/solverManager_solvers.hpp: transientSolver"]}
{"id": "C83", "title": "The output file has the requested frames and the final state once", "statement": "The output file of a transient run contains every step that is a multiple of the requested output frequency, and the final state exactly once.", "quantifier": "all output frequencies and numbers of steps", "why_tests_cant": "depends on divisibility of the number of steps by two independent frequencies; a test fixes these", "anchors": ["src/managers/postprocess/postprocessManager_util.hpp: record", "src/managers/solver/solverManager_solvers.hpp: transientSolver"]}
{"id": "C84", "title": "Each sensor is owned by exactly one process", "statement": "A sensor point lying in the mesh is assigned to an element containing it on exactly one process, and to no other; a point outside of the mesh to none.", "quantifier": "all numbers of processes, all divisions of the elements among groups and processes, all points including those on faces common to several elements", "why_tests_cant": "sensors on faces between processes depend on the partition; a test has one partition", "anchors": ["src/managers/postprocess/postprocessManager_sensors.hpp: locateSensorPoints"]}
{"id": "C85", "title": "Sensors on a grid are the grid points in order", "statement": "A grid of sensors has Nx*Ny*Nz points; sensor (i*Ny+j)*Nz+k is the grid point i,j,k; the first and last points of a direction are its given ends.", "quantifier": "all numbers of points and all ends of the three directions", "why_tests_cant": "ranges over all grid sizes, including one point in a direction", "anchors": ["src/managers/postprocess/postprocessManager_sensors.hpp: importSensorsOnGrid"]}
{"id": "C86", "title": "Each process reads and keeps the sensors of its own files", "statement": "With one file of sensors per process, process r reads the files with '.r' before the extension, and keeps the sensors of its file which lie in its elements.", "quantifier": "all file names, ranks and numbers of processes", "why_tests_cant": "whether the names come out right depends on the lengths of the two names and of the rank; a test uses one pair of names and few processes", "anchors": ["src/managers/postprocess/postprocessManager_sensors.hpp: importSensorsFromFiles, locateSensorPoints"]}
{"id": "C87", "title": "Layout of the collected responses", "statement": "The collected vector of responses contains, for each objective, sensor, recorded time and component, the value computed on the process owning the sensor at a fixed place given by the numbers of these, and for integrated responses the sum over the processes.", "quantifier": "all lists of objectives, numbers of sensors, times, components, all ownerships of sensors by processes", "why_tests_cant": "any ownership of sensors and any mixture of objectives; wrong offsets show only with several objectives and processes", "anchors": ["src/managers/postprocess/postprocessManager_util.hpp: collectResponses"]}
{"id": "C88", "title": "Results of a solve do not depend on the solves before", "statement": "Responses, sensor solutions, errors and norms reported after a forward solve are those of that solve, however many solves were made before (as in a sampling study).", "quantifier": "all sequences of solves with any recorded times", "why_tests_cant": "the state left over is visible only after a second solve, and grows with their number", "anchors": ["src/managers/postprocess/postprocessManager_objectives.hpp: resetObjectives", "src/managers/solver/solverManager_models.hpp: forwardModel", "src/managers/analysis/analysisManager_solve.hpp: UQSolve"]}
{"id": "C89", "title": "Discrete Fourier transform at sensors", "statement": "The transform reported for a sensor is the discrete Fourier transform of the recorded values.", "quantifier": "all numbers of frequencies and all sequences of recorded values", "why_tests_cant": "a statement about all signals and all frequencies; a comparison against stored output would record the wrong values", "anchors": ["src/managers/postprocess/postprocessManager_sensors.hpp: computeSensorSolution"]}
{"id": "C90", "title": "The weighted norm is a norm", "statement": "The reported weighted norm of the solution is not negative, zero only for the zero solution, and is multiplied by |c| when the solution is multiplied by c.", "quantifier": "all solutions and positive weights", "why_tests_cant": "homogeneity is a statement about all solutions and factors", "anchors": ["src/managers/postprocess/postprocessManager_util.hpp: computeWeightedNorm"]}
{"id": "C91", "title": "Reduction of fields over an element", "statement": "A field written per element is the mean, the greatest or the least of its values at the integration points, as requested.", "quantifier": "all values and positive weights", "why_tests_cant": "wrong only for fields of one sign; tests use one field", "anchors": ["src/managers/postprocess/postprocessManager_exodus.hpp: getExtraCellFields", "src/managers/postprocess/postprocessManager_derived_quantities.hpp: getDerivedQuantities"]}
{"id": "C92", "title": "Integrated quantities", "statement": "An integrated quantity is the integral over the block, or over the requested sides of its boundary, independently of the division among groups and processes; physics using it see its value at the previous step.", "quantifier": "all divisions of the elements, all names of sides, all sequences of steps with any output frequency", "why_tests_cant": "ranges over partitions, names and output frequencies", "anchors": ["src/managers/postprocess/postprocessManager_integrated_quantities.hpp: computeIntegratedQuantities"]}
{"id": "C93", "title": "Flux responses", "statement": "The reported flux is the integral of the flux over the requested sides for the current solution.", "quantifier": "all sets of boundary groups, side names, solutions and recorded times", "why_tests_cant": "the state used is that left by an earlier loop: right for some group sizes and wrong for others", "anchors": ["src/managers/postprocess/postprocessManager_flux_response.hpp: computeFluxResponse", "src/tools/postprocessTools.hpp: fluxResponse"]}
{"id": "C94", "title": "Norms of the error", "statement": "The reported norm of the error is the square root of the sum over all elements (or faces, each once) of the weighted squared difference to the given true solution, independently of the division among groups and processes.", "quantifier": "all divisions of elements among groups and processes, all solutions", "why_tests_cant": "ranges over partitions and meshes", "anchors": ["src/managers/postprocess/postprocessManager_error_estimation.hpp: computeError", "src/managers/postprocess/postprocessManager_util.hpp: report"]}
{"id": "C95", "title": "Flux conditions in both assemblies", "statement": "A flux prescribed for a variable on a side enters the residual of every equation as minus the integral of the flux against its test function, and the residual assembled together with the Jacobian is the same as the residual assembled alone.", "quantifier": "all numbers of unknowns per element, all settings of the automatic choice of the derivative type, all fluxes, bases, quadrature rules", "why_tests_cant": "The derivative type is selected from the number of unknowns per element, so the behaviour changes with the element, the order and the set of equations; a test covers one selection.", "anchors": ["src/interfaces/physics/physicsInterface_boundary_conditions.hpp:PhysicsInterface::fluxConditions", "src/managers/assembly/assemblyManager_jacres.hpp:AssemblyManager::assembleJacRes", "src/managers/assembly/assemblyManager_construct.hpp"]}
{"id": "C96", "title": "Settings of an element block", "statement": "On an element block the settings are the general ones, replaced by those of the sublists made for that block; sublists made for other blocks have no effect.", "quantifier": "all block names, all lists of settings, all names of settings", "why_tests_cant": "Whether a sublist is taken depends on how the names of all blocks and sublists of an input relate as texts; tests use a handful of names.", "anchors": ["src/interfaces/physics/physicsInterface_construct.hpp:PhysicsInterface::PhysicsInterface", "src/interfaces/physics/physicsInterface_functions.hpp:PhysicsInterface::defineFunctions"]}
{"id": "C97", "title": "Approximation spaces of variables and parameters", "statement": "Every variable of every physics set and every discretized parameter is computed on each block with the order and type requested for it.", "quantifier": "all blocks, all physics sets, all lists of variables and parameters with their orders and types", "why_tests_cant": "The numbers that tie a variable to its space depend on the whole list of variables of the block; mixtures of sets and blocks are unbounded.", "anchors": ["src/interfaces/physics/physicsInterface_construct.hpp:PhysicsInterface::importPhysics", "src/interfaces/physics/physicsInterface_util.hpp:PhysicsInterface::getUniqueIndex", "src/managers/parameter/parameterManager_setup.hpp:ParameterManager::setupDiscretizedParameters"]}
{"id": "C98", "title": "Requested modules", "statement": "The modules of a block are exactly those named in the input, in the given order; a name that is not known is reported.", "quantifier": "all texts, all lists of names", "why_tests_cant": "The input text is arbitrary; splitting and joining must be inverse for every list of names.", "anchors": ["src/interfaces/physics/physicsInterface_util.hpp:PhysicsInterface::breakupList", "src/physics/physicsImporter.cpp:PhysicsImporter::import"]}
{"id": "C99", "title": "Numbers given for conditions", "statement": "A number or text given for a boundary or initial condition is the one that is used on its side; an entry for all boundaries applies to the sides without an entry of their own.", "quantifier": "all numbers, all sets of entries, all side names", "why_tests_cant": "The error depends on the size of the number given; a test compares a few numbers of moderate size.", "anchors": ["src/interfaces/physics/physicsInterface_functions.hpp:PhysicsInterface::defineFunctions"]}
{"id": "C100", "title": "The heat equation that is solved", "statement": "The thermal module contributes to the residual of every basis function exactly the weak form of rho cp dT/dt - div(k grad T) (+ advection) = source: the volume integral, minus the Neumann flux, the weakly imposed Dirichlet value with its penalty; summed over a partition of unity the residual is the energy balance; the flux reported to a coarser scale balances the interface residual; with form parameter 1 the boundary matrix is symmetric and is the same in forward and adjoint computations; robin data act on the boundary.", "quantifier": "all states, coefficients, quadrature rules, basis functions, boundary conditions, dimensions 1 to 3, form parameters", "why_tests_cant": "A test compares one manufactured solution on a few meshes; wrong terms that vanish for that solution, or that only enter the adjoint, are not seen.", "anchors": ["src/physics/thermal.cpp:thermal::volumeResidual", "src/physics/thermal.cpp:thermal::boundaryResidual", "src/physics/thermal.cpp:thermal::computeFlux"]}
{"id": "C101", "title": "The elasticity equations that are solved", "statement": "The linear elasticity module computes the stress of Hooke's law less thermal expansion less pore pressure; rigid motions and free expansion cause no stress, the energy is symmetric and not negative; the volume residual is the virtual work of the stress minus the source; tractions, weakly imposed displacements and interfaces enter componentwise with symmetric boundary terms; the flux reported to a coarser scale balances the interface residual.", "quantifier": "all displacement gradients, Lame parameters, temperatures, pressures, quadrature rules, basis functions, settings, combinations of conditions per component, dimensions 1 to 3", "why_tests_cant": "The settings (plane stress, thermal expansion, Biot, mixed conditions per component) combine in more ways than tests cover, and each error only shows in one combination.", "anchors": ["src/physics/linearelasticity.cpp:linearelasticity::computeStress", "src/physics/linearelasticity.cpp:linearelasticity::volumeResidual", "src/physics/linearelasticity.cpp:linearelasticity::boundaryResidual", "src/physics/linearelasticity.cpp:linearelasticity::computeFlux"]}
{"id": "C102", "title": "The Stokes equations that are solved", "statement": "The Stokes module contributes to every momentum equation the weak form of -div(nu grad u) + grad p = f and to the pressure equation the divergence; weighted with the solution itself the residuals sum to dissipation minus power of the source, the pressure does no work; the pressure stabilisation vanishes for exact solutions and has the documented parameter in every dimension; least-squares stabilisation acts on the momentum equations; sources and tractions given by the user act.", "quantifier": "all states, viscosities, sources, quadrature rules, basis functions, stabilisation options, dimensions 1 to 3", "why_tests_cant": "The regression tests compare with stored output of the same code and use zero or manufactured sources with a fixed dimension; inconsistent stabilisation converges on refinement and is invisible in a tolerance.", "anchors": ["src/physics/stokes.cpp:stokes::volumeResidual", "src/physics/stokes.cpp:stokes::boundaryResidual"]}
{"id": "C103", "title": "The Navier-Stokes equations that are solved", "statement": "The Navier-Stokes module contributes to the equation of every velocity component the weak form of rho(u_t + u.grad u - f) - div(mu grad u) + grad p with buoyancy when a temperature is computed; SUPG and PSPG are tests of the strong residual, so they vanish for exact solutions; the traction of each component acts on that component only.", "quantifier": "all states, coefficients, quadrature rules, basis functions, stabilisation and buoyancy settings, boundary condition combinations, dimensions 1 to 3", "why_tests_cant": "The residual has six copies of each block, one per component and dimension; a test exercises one dimension and one setting, and an error in one copy shows in no other.", "anchors": ["src/physics/navierstokes.cpp:navierstokes::volumeResidual", "src/physics/navierstokes.cpp:navierstokes::boundaryResidual", "src/physics/navierstokes.cpp:navierstokes::setWorkset"]}
{"id": "C104", "title": "The porous-flow (pressure) equation that is solved", "statement": "The porous module contributes the weak form of porosity*density*p_t - div(K/mu rho (grad p - rho g)) = source, conserves mass up to source and side fluxes, imposes side conditions consistently (a side term vanishes when the pressure has the prescribed value, and the terms of both sides of an interface cancel in sum), takes the gravity the user gives into account, and returns to the coarse scale the normal flux in all directions of space.", "quantifier": "all states, permeabilities, densities, viscosities, sources, side data, quadrature rules, basis functions, dimensions 1 to 3", "why_tests_cant": "The multiscale tests are one-permeability, compare with stored output of the same code, and no test varies gravity; a flux that lacks its y and z parts still converges to something smooth.", "anchors": ["src/physics/porous.cpp:porous::volumeResidual", "src/physics/porous.cpp:porous::boundaryResidual", "src/physics/porous.cpp:porous::computeFlux"]}
{"id": "C105", "title": "Coarse values between coarse times", "statement": "A subgrid model that takes its own time steps sees, at each of its stage times, the coarse value interpolated from the stored coarse history: coarse values that are polynomials in time of the degree of the history are seen exactly, at coarse times the coarse values themselves are seen, the reported factor is the derivative of the seen value with respect to the current coarse value, and the sub-steps cover the coarse step exactly - for every coarse time integrator, every stage and every sequence of step lengths.", "quantifier": "all coarse values, times, step lengths, numbers of sub-steps, stage abscissae, lengths of history", "why_tests_cant": "The tests use fixed steps and backward Euler; weights that assume equal steps, or a missing branch for longer histories, only show with step cutting or higher order methods, as a slightly wrong or zero boundary value on the fine scale.", "anchors": ["src/subgrid/subgridDtN_solver.cpp:SubGridDtN_Solver::lagrangeInterpolate", "src/subgrid/subgridDtN_solver.cpp:SubGridDtN_Solver::solve", "src/subgrid/subgridDtN.cpp:SubGridDtN::advanceStage"]}
{"id": "C106", "title": "The flux the coarse equation receives from a subgrid model", "statement": "After the fine problem of a coarse element is solved, each coarse equation receives exactly the flux of its own variable through the sides of that element, tested with its own basis functions and summed once over all sides; with averaging, the mean over the sub-steps; with a partition of unity the entries sum to the total flux, so nothing is lost between the scales. The result does not depend on earlier groups, sub-steps or residuals, nor on the order in which the two scales number their variables.", "quantifier": "all numbers of coarse variables, orders of variables on both scales, boundary groups, fluxes, weights, basis functions, numbers of sub-steps", "why_tests_cant": "Single-variable tests with modules that overwrite the flux pass; the accumulation of earlier groups and the mixed numbering appear only with particular modules, several boundary groups or several coupled variables.", "anchors": ["src/subgrid/subgridDtN_solver.cpp:SubGridDtN_Solver::updateFlux", "src/managers/assembly/assemblyManager_util.hpp:AssemblyManager::computeFlux", "src/physics/thermal.cpp:thermal::computeFlux", "src/physics/porous.cpp:porous::computeFlux", "src/physics/porousMixed.cpp:porousMixed::computeFlux"]}
{"id": "C107", "title": "Fine solves and their derivative with respect to coarse values", "statement": "The fine problem of every sub-step is solved to the tolerance (or the failure is reported), and the derivative of the fine solution with respect to the coarse values that is handed to the coarse Newton method is the derivative of that solution: moving the coarse value along a direction moves the final fine solution by the derivative, through all sub-steps. The answer of a solve does not depend on how often it has been asked for in the same coarse step.", "quantifier": "all fine problems, tolerances, iteration limits, numbers of sub-steps, interpolation weights, coarse directions, states of the linear solver", "why_tests_cant": "A wrong derivative only slows the coarse Newton iteration, and a stale factorisation depends on the order in which coarse elements are visited; finite-difference tests on one linear example pass.", "anchors": ["src/subgrid/subgridDtN_solver.cpp:SubGridDtN_Solver::nonlinearSolver", "src/subgrid/subgridDtN_solver.cpp:SubGridDtN_Solver::forwardSensitivityPropagation", "src/subgrid/subgridDtN_solver.cpp:SubGridDtN_Solver::solve", "src/tools/group.cpp:Group::resetPrevSoln"]}
{"id": "C108", "title": "Maxwell's equations and their energy", "statement": "The Maxwell module assembles Faraday's and Ampere's laws tested with the basis functions, in two and three dimensions, for coefficients that vary over an element; leap-frog stages advance one field while the other is held; the residuals weighted with the fields give the Poynting balance (rate of energy plus ohmic loss plus work on the current) with the exchange between the fields cancelling exactly; the absorbing condition acts on the tangential electric field.", "quantifier": "all elements, bases, quadrature rules, coefficients, states, stages, sides", "why_tests_cant": "Manufactured solutions with constant coefficients do not see where a coefficient enters; the energy identity is a statement about all states.", "anchors": ["src/physics/maxwell.cpp:maxwell::volumeResidual", "src/physics/maxwell.cpp:maxwell::boundaryResidual"]}
{"id": "C109", "title": "Elastodynamics: momentum, velocities and energy", "statement": "In one, two and three dimensions each displacement equation is the balance of momentum and each velocity equation relates its displacement to its velocity; internal stresses move no momentum out of an element; weighted with the velocity the equations give the balance of mechanical energy.", "quantifier": "all dimensions, elements, bases, states, stresses, forces", "why_tests_cant": "Tests in two dimensions with one basis order pass whatever the three-dimensional offsets are; a balance is a statement about all states.", "anchors": ["src/physics/elastodynamics.cpp:elastodynamics::volumeResidual"]}
{"id": "C110", "title": "Scalar transport modules", "statement": "Convection-diffusion-reaction, shallow ice, elliptic prior and ode modules assemble the weak form of their documented equation in each dimension they accept; diffusion moves nothing out of an element except through its sides; defaults describe an equation without sources.", "quantifier": "all dimensions, elements, bases, states, coefficients", "why_tests_cant": "Every regression test sets the coefficients and one dimension; the identity must hold for all states and all dimensions.", "anchors": ["src/physics/cdr.cpp:cdr::volumeResidual", "src/physics/shallowice.cpp:shallowice::volumeResidual", "src/physics/ellipticPrior.cpp:ellipticPrior::volumeResidual", "src/physics/ode.cpp:ODE::volumeResidual"]}
{"id": "C111", "title": "Burgers' equation: conservation, stabilisation and entropy viscosity", "statement": "The Burgers module assembles the conservative weak form; whatever stabilisation is chosen the scheme conserves; the stabilisation vanishes where the equation holds; entropy viscosity is bounded, not negative and negligible where the equation holds; uniform states at rest stay; settings act in every dimension.", "quantifier": "all dimensions, settings, elements, bases, states, velocities", "why_tests_cant": "Convergence tests cannot show conservation or consistency for all states, and use one velocity in two dimensions.", "anchors": ["src/physics/burgers.cpp:Burgers::volumeResidual", "src/physics/burgers.cpp:Burgers::boundaryResidual"]}
{"id": "C112", "title": "Kuramoto-Sivashinsky equations", "statement": "The module assembles the weak forms of the two second-order equations, each for every basis function of its own variable; the terms with the gradient of the auxiliary variable cancel in the energy balance, and the mean of the solution drifts exactly by half the squared gradient.", "quantifier": "all dimensions, elements, states, bases of the two variables", "why_tests_cant": "The equation is chaotic, runs with different round-off separate; tests use the same basis for both variables.", "anchors": ["src/physics/kuramotoSivashinsky.cpp:KuramotoSivashinsky::volumeResidual"]}
{"id": "C113", "title": "Shallow water: conservation and the lake at rest", "statement": "The shallow water module assembles conservation of water and the balance of momentum with gravity, the force of the bed, viscosity, Coriolis force and friction; water is conserved for any flow; still water with a level surface stays still over any bed.", "quantifier": "all elements, bases, states with non-zero depth, beds, elevations, coefficients", "why_tests_cant": "Well-balancedness must hold for every bed; tests use a flat one and leave the other coefficients at their defaults.", "anchors": ["src/physics/shallowwater.cpp:shallowwater::volumeResidual", "src/physics/shallowwater.cpp:shallowwater::boundaryResidual"]}
{"id": "C114", "title": "Hartmann flow", "statement": "The module assembles the weak forms of the coupled equations of velocity and induced field; weighted with the fields they give the two dissipations and an exact derivative, so the homogeneous problem has only the trivial solution; a side adds the given flux exactly where the input asks for it.", "quantifier": "all elements, bases, Hartmann numbers, states, conditions on sides", "why_tests_cant": "The regression test is one channel with one kind of boundary condition.", "anchors": ["src/physics/hartmann.cpp:hartmann::volumeResidual", "src/physics/hartmann.cpp:hartmann::boundaryResidual"]}
{"id": "C115", "title": "Uniform refinement of a subgrid mesh", "statement": "A coarse element refined r times is divided into congruent parts of the reference element: the parts cover it without overlap, have its orientation, share their nodes, and every part of a side of the coarse element is known as a part of that side.", "quantifier": "all numbers of refinements, vertices on a grid coarser than the node tolerance, element shapes", "why_tests_cant": "The number of refinements is free; tests use one or two and compare a solution, which hides wrong sides, inverted and missing elements.", "anchors": ["src/subgrid/subgridTools.cpp:SubGridTools::createSubMesh", "src/subgrid/subgridTools.cpp:SubGridTools::refineSubCell", "src/subgrid/subgridTools.cpp:SubGridTools::checkExistingSubNodes"]}
{"id": "C116", "title": "Copies of a subgrid mesh and their boundary groups", "statement": "The nodes, elements and side conditions of the copies of the reference mesh agree; every side on the boundary of a coarse element has the condition of that side and is assembled once, with the type of condition and the degrees of freedom of its own elements.", "quantifier": "all numbers of coarse elements, refined meshes, variables, conditions and names of sides", "why_tests_cant": "It depends on which coarse elements share a group and on mixed conditions of several variables; tests have one variable and one coarse element per group.", "anchors": ["src/subgrid/subgridTools.cpp:SubGridTools::getPhysicalNodes", "src/subgrid/subgridTools.cpp:SubGridTools::getPhysicalConnectivity", "src/subgrid/subgridTools.cpp:SubGridTools::getPhysicalSideinfo", "src/subgrid/subgridTools.cpp:SubGridTools::getUniqueSides", "src/subgrid/subgridDtN.cpp:SubGridDtN::setUpSubgridModels"]}
{"id": "C117", "title": "Basis functions on mapped elements", "statement": "Basis values, gradients, curls and divergences on an element, its faces and boundaries, at given points and at nodes are those of the reference functions carried over by the map of the element with the coefficients of its orientation: values are kept, gradients and edge functions keep the circulation along every mapped step, face functions and curls keep the flow through every mapped piece, and volumetric, face and boundary routines agree on them.", "quantifier": "all invertible maps that may differ from point to point, all basis types, numbers of functions and points, orientation coefficients, in one, two and three dimensions", "why_tests_cant": "The transforms are the identity up to scale on the axis-aligned elements of the tests, and orientation matters only for orders and meshes the tests do not combine.", "anchors": ["src/interfaces/discretization/discretizationInterface_basis.hpp:DiscretizationInterface::getPhysicalVolumetricBasis", "src/interfaces/discretization/discretizationInterface_basis.hpp:DiscretizationInterface::getPhysicalFaceBasis", "src/interfaces/discretization/discretizationInterface_basis.hpp:DiscretizationInterface::getPhysicalBoundaryBasis", "src/interfaces/discretization/discretizationInterface_basis.hpp:DiscretizationInterface::evaluateBasis"]}
{"id": "C118", "title": "Weights, normals and sizes of elements and sides", "statement": "The weights of an element add up to its measure, those of a side to its length; the normals stored for a side have length one, are perpendicular to it and lead out of the element; weight times normal is the surface element, so that a constant field has no net flow out of any element and the flow of face functions does not depend on the shape of the element; tangents have length one; sizes are the corresponding roots of the measures.", "quantifier": "all triangles, quadrilaterals, tetrahedra and hexahedra with any corners, all sides, all rules whose weights add up to the measure of the reference cell (and symmetric points for bilinear shapes)", "why_tests_cant": "It is a statement about every shape of element; tests use squares and cubes, where the weights and normals are constants.", "anchors": ["src/interfaces/discretization/discretizationInterface_integration.hpp:DiscretizationInterface::getPhysicalFaceIntegrationData", "src/interfaces/discretization/discretizationInterface_integration.hpp:DiscretizationInterface::getPhysicalBoundaryIntegrationData", "src/interfaces/discretization/discretizationInterface_integration.hpp:DiscretizationInterface::getMeasure", "src/interfaces/discretization/discretizationInterface_integration.hpp:DiscretizationInterface::setReferenceIntegrationData", "src/tools/workset.cpp:Workset::getElementSize", "src/tools/boundaryGroup.cpp:BoundaryGroup::computeSize"]}
{"id": "C119", "title": "Mixed and hybrid mixed porous flow", "statement": "The mixed porous modules assemble Darcy's law tested with every velocity function and the mass balance tested with every pressure function: what is produced in an element leaves it, the matrix is symmetric, the energy balance contains only dissipation and the work of the source, a constant pressure is at rest, a side with given pressure adds its work on the outflow, and in the hybrid module the face unknown enforces that the velocity leaving one element enters its neighbour without doing work; permeability data mean the same in both modules.", "quantifier": "all dimensions one to three, all numbers of functions and points, all values of basis functions, permeabilities, mobilities, sources, states and sides, all layouts of unknowns without overlap", "why_tests_cant": "Conservation, symmetry and the energy balance are identities over all states and meshes; regression tests compare a few solutions on regular meshes in which every variable has its own basis.", "anchors": ["src/physics/porousMixed.cpp:porousMixed::volumeResidual", "src/physics/porousMixed.cpp:porousMixed::boundaryResidual", "src/physics/porousMixed.cpp:porousMixed::computeFlux", "src/physics/porousMixed.cpp:porousMixed::updatePerm", "src/physics/porousMixedHybridized.cpp:porousMixedHybrid::volumeResidual", "src/physics/porousMixedHybridized.cpp:porousMixedHybrid::faceResidual", "src/physics/porousMixedHybridized.cpp:porousMixedHybrid::updatePerm"]}
{"id": "C120", "title": "Random permeability fields and wells", "statement": "With a Karhunen-Loeve expansion the permeability in every direction is the given one times the exponential of the truncated expansion, whose terms are the products of the eigenpairs of an exponential covariance in each direction, in a fixed order, with the coefficients of the two parameters one after the other; the eigenvalues and eigenfunctions are those of the covariance, normalised, for the first roots of the characteristic equation; the permeability written to the output is the one used. Wells are added to the source of the user, with the permeability of the medium; the sign of what a well adds is that of its function.", "quantifier": "all numbers of terms, coefficients, points, lengths, correlation lengths and variances, one to three dimensions, all lists of wells", "why_tests_cant": "The eigenpair property is an integral identity for all parameters; the order of terms and the search for the roots go wrong only for parameters that tests do not use.", "anchors": ["src/physics/porousMixed.cpp:porousMixed::porousMixed", "src/physics/porousMixed.cpp:porousMixed::updateKLPerm", "src/physics/porousMixed.cpp:porousMixed::getDerivedValues", "src/tools/klexpansion.hpp:klexpansion::computeRoots", "src/tools/klexpansion.hpp:klexpansion::getEval", "src/tools/klexpansion.hpp:klexpansion::getEvec", "src/physics/wells.hpp:wells::addWellSources"]}
{"id": "C121", "title": "Simple structured meshes: nodes, cells, sides, edges and their distribution over processes", "statement": "A simple mesh manager built from a box and numbers of cells has the announced number of nodes, at the points that divide the sides of the box into equal parts, all different; its cells are counter-clockwise with equal areas and tile the box; the side set lists for each local side exactly the cells with that side on that part of the boundary; edges have one number per pair of nodes, all below the announced number and all used. Distributed over processes, local and global node numbers are inverse to each other, every global node is owned by exactly one process, every cell is on exactly one process, and nodes and cells are those of the undistributed mesh.", "quantifier": "all boxes, all numbers of cells, all decompositions, all cells, sides, edges, nodes and points of the box", "why_tests_cant": "the claim is about all sizes and decompositions (uniqueness and covering), tests look at a few small meshes", "anchors": ["src/tools/simplemeshmanager.hpp:SimpleMeshManager_Rectangle", "src/tools/simplemeshmanager.hpp:SimpleMeshManager_Rectangle_Parallel", "src/tools/simplemeshmanager.hpp:SimpleMeshManager_Brick"]}
{"id": "C122", "title": "Simple meshes give the box and the degrees of freedom the user asked for", "statement": "With 'use simple mesh' the mesh covers [xmin,xmax] x [ymin,ymax] (x [zmin,zmax]) as given in the sublist Mesh, the mesh of the phase space covers the limits of the sublist Phase Mesh, every global degree of freedom is owned by exactly one process, different variables have different degrees of freedom, and basis functions of neighbouring cells that belong to the same node share their degree of freedom.", "quantifier": "all limits, numbers of cells, decompositions, variables and cells", "why_tests_cant": "depends on the values of all settings and on every cell and variable; a symmetric test box hides exchanged directions", "anchors": ["src/interfaces/mesh/meshInterface_construct.hpp:MeshInterface", "src/interfaces/discretization/discretizationInterface_dof.hpp:buildSimpleDOFManagers", "src/tools/simplemeshmanager.hpp:SimpleMeshManager_Brick"]}
{"id": "C123", "title": "Which matrix and preconditioner a linear solve is given, and which options reach it", "statement": "Without \"reuse Jacobian\" every linear solve in every forward or adjoint run uses the Jacobian assembled in that same nonlinear iteration; with it, every linear solve uses the first Jacobian of that run, never one of another run, never one that was not assembled, and the results are those of the problem. A preconditioner that is kept comes from a matrix of the same run; the multigrid one is always recomputed. An unknown solver or preconditioner name is rejected. Each option of a linear solver is the value given in its sublist (or in the Solver list if there is no sublist) and has an effect.", "quantifier": "all sequences of forward and adjoint runs, each any sequence of nonlinear iterations with any pattern of converged and unconverged residuals, all matrices, all parameter lists", "why_tests_cant": "reuse makes the outcome depend on the whole history of iterations, resets and modes; a test sees only one history, and a stale matrix usually still converges", "anchors": ["src/interfaces/linear_algebra/linearAlgebraInterface_matrix.hpp: getNewMatrix, getNewPreviousMatrix", "src/interfaces/linear_algebra/linearAlgebraInterface_solvers.hpp: linearSolver", "src/interfaces/linear_algebra/linearAlgebraInterface_util.hpp: getJacobianReuse, getBelosParameterList, resetAllJacobian", "src/interfaces/linear_algebra/linearSolverContext.hpp: LinearSolverContext", "src/managers/solver/solverManager_solvers.hpp: nonlinearSolver"]}
{"id": "C124", "title": "Maps and sparsity graphs hold every unknown and every coupling", "statement": "The owned unknowns of all processes are every unknown exactly once, also when each spatial unknown carries several phase unknowns; the graph of the Jacobian has an entry exactly where two unknowns meet in an element, so that every entry the assembly adds has a place; the graph is symmetric, so the transposed Jacobian of the adjoint fits too; the room reserved in each row suffices; the graph between discretised parameters and the state has an entry exactly where they meet; whatever is allocated is enough for the steps that follow.", "quantifier": "all distributions of unknowns, all lists of elements with any unknowns, all numbers of phase unknowns and phase elements, all process counts", "why_tests_cant": "a missing entry or too little room only shows for particular meshes and distributions; no finite set of meshes covers all connectivities", "anchors": ["src/interfaces/linear_algebra/linearAlgebraInterface_construct.hpp: setupLinearAlgebra", "src/interfaces/linear_algebra/linearAlgebraInterface_vector.hpp: importVectorToOverlapped", "src/managers/solver/solverManager_util.hpp: setInitial", "src/interfaces/discretization/discretizationInterface_dof.hpp: getGIDs, getPhaseGIDs"]}
{"id": "C125", "title": "The hybridised Euler equations: ideal gas, fluxes, waves, stabilisation, conditions", "statement": "The residual of an element is the weak form of conservation of mass, momentum and energy of an ideal gas with the configured gamma, on every element and side; the speed of sound belongs to the same gas; the eigenvalues and eigenvectors used on sides diagonalise the derivative of the flux through the side at the trace; a Roe-like stabilisation multiplies each wave of the jump by the absolute value of its speed, the other one by the largest wave speed; the stabilisation vanishes without a jump; two elements that share a side exchange what the flux says; a slip wall lets no gas pass; a far-field condition imposes the given state on entering waves and nothing on leaving ones.", "quantifier": "all states with nonzero density, all unit normals, dimensions 1 to 3, all basis functions, meshes and sources, all orders of the variables in the physics set", "why_tests_cant": "the eigenvectors are given in four cases depending on the normal and must be right for every state and normal; symmetric test flows (gas at rest, normal along an axis) hide wrong entries and orders", "anchors": ["src/physics/euler.cpp: euler, volumeResidual, boundaryResidual, computeFlux, setWorkset, computeInviscidFluxes, computeThermoProps, computeStabilizationTerm, computeBoundaryTerm, eigendecompFluxJacobian, matVec", "src/physics/euler.hpp"]}
{"id": "C126", "title": "The Helmholtz module solves the complex Helmholtz equation", "statement": "The equations of ureal and uimag vanish exactly when the complex weak form of -omega^2 u - div(c^2 grad u) = s vanishes for every basis function, also where one of the two parts has a Dirichlet condition and where the two parts have different basis functions; a Robin side adds alpha u + du/dn - source in every dimension, for each part according to its own condition; with the option fractional the mass term is the configured power of the frequency, so that the exponent one gives the Helmholtz equation back.", "quantifier": "all complex coefficients, solutions and sources, dimensions 1 to 3, all basis functions and quadrature rules", "why_tests_cant": "a test with equal bases and the same conditions for both parts cannot tell the combination of equations that is assembled from the real and imaginary parts", "anchors": ["src/physics/helmholtz.cpp: volumeResidual, boundaryResidual", "src/tools/vista.hpp: Vista"]}
{"id": "C127", "title": "The initial state is the one asked for", "statement": "At the start of a solve the state is the projection of the user's initial data (no finite element function is closer, data that is such a function is reproduced), its values at the nodes when interpolation is asked for, or the numbers given; on any number of blocks, for any size of the elements, with lumped masses for constants, and in forward and adjoint runs alike.", "quantifier": "every mesh, numbering, basis, quadrature, data; every list of blocks and of sets of equations", "why_tests_cant": "Tests compare the projection on one mesh with one block and elements of size about one; whether a row is mistaken for a zero row depends on the order of blocks and on the size of the elements.", "anchors": ["src/managers/assembly/assemblyManager_initial.hpp:setInitial,setInitialFace,getInitial,getInitialFace", "src/managers/solver/solverManager_util.hpp:157-315", "src/managers/solver/solverManager_construct.hpp:262-292", "src/interfaces/physics/physicsInterface_initial.hpp"]}
{"id": "C128", "title": "Microstructures: seeds, grains and rotations", "statement": "A microstructure made by the program has its seeds inside the mesh, one in every cell of the lattice or each as far as possible from the earlier ones; every element belongs to the grain of the seed nearest to its centre, in the volume and on the boundary, and holds the rotation of that grain, which is a proper rotation; new rotations change the rotations and keep the grains, on any number of processes; with data from a file every element holds the row of its closest data point.", "quantifier": "every stream of random numbers, number of seeds, mesh with any blocks, groups and cell shapes, number of processes, data file", "why_tests_cant": "A test uses one seed of the generator, few grains, cells of one shape and no element half way between two seeds; that all later elements shift by one after a tie, or that grains 100 apart melt together, shows only for other draws and sizes.", "anchors": ["src/managers/assembly/assemblyManager_util.hpp:importMeshData,importNewMicrostructure", "src/interfaces/mesh/meshInterface_util.hpp:generateNewMicrostructure,getElementCenters", "src/managers/analysis/analysisManager_util.hpp:updateRotationData", "src/tools/workset.cpp:allocateRotations", "src/tools/group.cpp", "src/tools/boundaryGroup.hpp", "src/interfaces/compadre/CompadreInterface.hpp"]}
{"id": "C129", "title": "Crystal elasticity: constants, rotation, stress", "statement": "With crystal elasticity the stress of an element is that of a crystal with the elastic constants given by the user, turned by the rotation of that element: symmetric, independent of the frame, isotropic when the material is given by E and nu; parameters for lambda, mu, Young's modulus and Poisson's ratio replace the constants; a free thermal expansion causes no stress; in two dimensions the result is that of plane strain; elements do not influence each other.", "quantifier": "all constants, displacement gradients, rotations and angles, dimensions 1 to 3, any parameters and temperatures, any order of the elements among threads", "why_tests_cant": "One of 81 entries of a tensor matters only for one shear direction; tests with isotropic defaults, rotations in the plane or a single thread cannot see the rest.", "anchors": ["src/physics/CrystalElasticity.cpp: CrystalElastic, computeLatticeTensor, updateParams, computeStress, computeRotatedTensor", "src/physics/CrystalElasticity.hpp", "src/physics/linearelasticity.cpp: setWorkset, computeStress", "src/physics/elastodynamics.cpp: setWorkset, computeStress"]}
{"id": "C130", "title": "Steady runs: solution of several physics sets and gradient by the adjoint", "statement": "A run with solver type steady-state records one state; if the problem is split into several physics sets, the recorded state satisfies the equations of all of them; a gradient asked for afterwards is the derivative of the objective at that state with respect to the scalar parameters, added to what was in the gradient, whatever values the adjoint solve starts from, whatever the initial time, the write frequency, the number of processes and of physics sets; a setting for which no gradient is computed is reported.", "quantifier": "all numbers of physics sets and cycles, all nonlinear solves, all linearisations, exact linear solvers, all initial values, start values of the adjoint, initial times, write frequencies, numbers of processes, solver types", "why_tests_cant": "Tests use initial time zero, one physics set and write frequency one; the conversion of a time to an index, the coupling of sets in both directions and the dependence on uninitialised numbers show only for other settings, and the gradient is right for all problems only by an argument about the adjoint.", "anchors": ["src/managers/solver/solverManager_models.hpp: forwardModel, adjointModel", "src/managers/solver/solverManager_solvers.hpp: steadySolver, nonlinearSolver", "src/tools/solutionStorage.hpp: extract", "src/managers/postprocess/postprocessManager_objective_gradient.hpp: computeSensitivities, computeObjectiveGradState"]}
{"id": "C131", "title": "Bases on the sides of elements", "statement": "A basis of type HFACE has functions for every side of an element: on a side, away from its boundary, exactly the functions of this side are nonzero, they are the given polynomials, add up to one, are one at their own node and zero at the others; inside the element all vanish; two elements that share a side see the same function on it under the same number; points evaluated together do not influence each other; the basis exists for every order on quadrilaterals, triangles, hexahedra and tetrahedra.", "quantifier": "all orders, all polynomials on the line with their nodes, all points of the sides and of the interior, all pairs of sides, all lists of points, all positive tolerances", "why_tests_cant": "Tests solve on regular meshes of bricks of the lowest order, where every shared side is a left side of one element and a right side of the other and where transposed numbers coincide; triangles, higher orders in three dimensions and irregular numberings are not run.", "anchors": ["src/tools/Intrepid2_HFACE_QUAD_In_FEMdef.hpp:Basis_HFACE_QUAD_In_FEM", "src/tools/Intrepid2_HFACE_TRI_In_FEMdef.hpp:Basis_HFACE_TRI_In_FEM", "src/tools/Intrepid2_HFACE_HEX_In_FEMdef.hpp:Basis_HFACE_HEX_In_FEM", "src/tools/Intrepid2_HFACE_TET_In_FEMdef.hpp:Basis_HFACE_TET_In_FEM", "src/tools/Intrepid2_HFACE_QUAD_In_FEM.hpp:getValues", "src/interfaces/discretization/discretizationInterface_basis.hpp:getBasis"]}
{"id": "C132", "title": "Porous flow by weak Galerkin", "statement": "The weak Galerkin module assembles the definition of the weak gradient from the pressures of element and faces, Darcy's law and the balance, tested with every function of gradient, flux and pressure, and on every face the flux leaving the element: what is produced in an element leaves it, a flux of minus permeability times gradient meets Darcy's law, the weighted equations leave the dissipation minus the work of the source, equal constant pressures are at rest also next to sides with prescribed pressure, the coarse scale receives the flux; the basis HDIV_AC has the divergences of its functions, represents constants on every quadrilateral and fields with constant divergence, and ties its functions to edges.", "quantifier": "all dimensions one to three, all numbers of functions and points, all values of basis functions, permeabilities, sources, states and sides, all layouts of unknowns without overlap, all bilinear quadrilaterals", "why_tests_cant": "Identities over all states; the regression tests solve one problem on squares with zero pressure on the boundary prescribed for the faces only, where the Piola map is a multiple of the identity.", "anchors": ["src/physics/porousWeakGalerkin.cpp:porousWeakGalerkin::volumeResidual", "src/physics/porousWeakGalerkin.cpp:porousWeakGalerkin::boundaryResidual", "src/physics/porousWeakGalerkin.cpp:porousWeakGalerkin::faceResidual", "src/physics/porousWeakGalerkin.cpp:porousWeakGalerkin::computeFlux", "src/physics/porousWeakGalerkin.cpp:porousWeakGalerkin::setWorkset", "src/tools/Intrepid2_HDIV_AC_QUAD_I1_FEMDef.hpp:Basis_HDIV_AC_QUAD_I1_FEM", "src/interfaces/discretization/discretizationInterface_basis.hpp:getPhysicalVolumetricBasis"]}
{"id": "C133", "title": "Transport of saturation keeps account of the water", "statement": "The incompressible saturation module assembles, for the saturation S of water, porosity times its rate minus the fractional flow carried by the given velocity minus the source, tested with every basis function; with basis functions that sum to one the equations of an element sum to stored water minus source, and uniform saturation stays uniform in a velocity whose weak divergence vanishes. This should hold for any physics set that contains the module, and for flow through the boundary.", "quantifier": "all porosities, dimensions one to three, fractional flows, velocities, sources, states, bases, quadrature rules, and all physics sets containing the module", "why_tests_cant": "A run checks one velocity field and one set; it cannot show that the account holds for all, nor what happens with further variables, where memory that was never written is read.", "anchors": ["src/physics/incompressibleSaturation.cpp: volumeResidual, computeFluxVector, boundaryResidual, setWorkset"]}
{"id": "C134", "title": "Transport of a level set", "statement": "The level set module assembles the transport equation tested with the basis functions and their derivatives along the velocity (streamline diffusion with coefficient h over four times the speed), and a penalty that pulls the mean length of the gradient in an element to one; penalty and stabilisation do not change the balance of an element, a transported distance function meets the equations up to the square of the built-in tolerance, and output fields carry their own names. This should hold for every velocity, also zero.", "quantifier": "all velocities or speeds, level sets, coefficients, element sizes, bases with any number of functions and quadrature rules", "why_tests_cant": "The regression cases have velocities away from zero everywhere; the failure needs one point where velocity or gradient vanishes.", "anchors": ["src/physics/levelSet.cpp: volumeResidual, computeTau, getDerivedNames, getDerivedValues", "src/physics/levelSet.hpp: zero_tol"]}
{"id": "C135", "title": "Rate of spread of a fire", "statement": "The rate of spread in a cell is that of Rothermel's model: reaction intensity (maximal at the optimal packing ratio) times propagating flux over the heat of ignition, positive exactly for fuel drier than its moisture of extinction and zero in cells without fuel; corrections for wind and slope are bounded by the constants of the settings, have the sign of the component along the gradient, act near the front only, and do not depend on the axes; a rate given by the user is used point by point and reported as such, and the scale offered as a function is the one used.", "quantifier": "all data of fuel, level sets, gradients, winds, slopes, settings, given rates", "why_tests_cant": "A test fixes one mesh with fuel data; bounds over all winds and the behaviour in cells without data are statements about all reals.", "anchors": ["src/physics/rothermal.cpp: computeBaseEquations, computeRothermals, computeFields, heaviside", "src/physics/levelSet.cpp: defineFunctions"]}
{"id": "C136", "title": "Data of a cell are found from coordinates", "statement": "From the coordinates of the nodes of a mesh with equal spacings, in any order, the reader recovers origin, spacings, numbers of cells and size; a point is then looked up in the cell that contains it and gets the data of that element, and nodal data are interpolated bilinearly; meshes that are not of this form are rejected.", "quantifier": "all origins, spacings, numbers of cells, orders of nodes, points of the domain, numberings of the elements, nodal data", "why_tests_cant": "One mesh file exercises one numbering and one spacing; wrong data for another numbering still look plausible.", "anchors": ["src/tools/ExoReader.cpp: computeGridAndDomain, unique_sorted_", "src/physics/rothermal.cpp: getElementIds, evalNodalR"]}
{"id": "C137", "title": "Fields of several phases: gradient flow of the energy", "statement": "For any number of phases, the module msphasefield adds to the residual of every element the weak form of the gradient flow phi_j' = -L (16 A phi_j (sum_i phi_i^2 - phi_j) - d^2 laplace phi_j), evaluated with the fields at each integration point; parameters L, A, thermal_diff default to one; variable mobility is L wherever the phases are not all small; pure phases are steady states; the claim is the same in every dimension.", "quantifier": "all groups of elements, numbers of points, functions and phases, fields, parameters, orders of variables in the workset", "why_tests_cant": "A run from one initial state shows a plausible evolution even when all points use the values of one; only a statement over all groups shows which values enter.", "anchors": ["src/physics/msphasefield.cpp: volumeResidual, setWorkset"]}
{"id": "C138", "title": "Waves in bianisotropic media: tensors of the user enter the weak form", "statement": "The module maxwell bianisotropic adds the weak forms of Faraday's and Ampere's laws with the tensors epsr, invmur, xir, zetar, sigma that the user gives under these names (component by component); media without coupling need no further data; either field can be solved alone; in a leap frog scheme each stage adds its own equation; the absorbing condition takes energy out.", "quantifier": "all tensors (also not symmetric, varying in space), fields, bases, layouts of unknowns, stages, unit normals", "why_tests_cant": "Tests with isotropic media leave most of the components at their defaults; a component that is read under another name only matters for media without that symmetry.", "anchors": ["src/physics/maxwell_bianisotropic.cpp: defineFunctions, volumeResidual, boundaryResidual", "src/interfaces/physics/physicsInterface_functions.hpp: defineFunctions", "src/managers/function/functionManager_evaluate.hpp: evaluate"]}
{"id": "C139", "title": "Parameters and gradients written to files are taken up by later runs", "statement": "A run that writes its parameters to files leaves files from which a later run with parameters of the same form starts with exactly the values the first run ended with, at every time level, scalars and fields; a gradient written to files can be read back component by component; a missing file or a file of another length stops the later run.", "quantifier": "all parameter tables, numbers of time levels, field lengths, base names, previous contents of the disk, analyses in between", "why_tests_cant": "A test writes one set of values under one name and compares to a tolerance; name clashes for other names and numbers, values with more digits and files left over from earlier runs do not show.", "anchors": ["src/managers/analysis/analysisManager_solve.hpp: run, recoverParametersFromFile, writeOptVectorToFile", "src/managers/parameter/parameterManager_access.hpp: getCurrentVector", "src/managers/parameter/parameterManager_update.hpp: updateParams", "src/interfaces/linear_algebra/linearAlgebraInterface_util.hpp: writeVectorToFile, readParameterVectorFromFile"]}
{"id": "C140", "title": "An adjoint run takes up the states of an earlier forward run", "statement": "A forward run that writes its states to files and a later adjoint run that reads them give the gradient that forward and adjoint in one run give: every state of the forward run is on file under its own name, the adjoint run holds all of them at their times and visits every step from the last to the first; with recomputed states it does the same; a missing file stops the run.", "quantifier": "all recorded states and numbers of steps, physics sets, base names, numbers of history terms, start and end times, steps, previous contents of the disk", "why_tests_cant": "The regression test with files is steady, where one state is the whole history.", "anchors": ["src/managers/solver/solverManager_util.hpp: recoverForwardStateFromFile, setForwardStates", "src/managers/postprocess/postprocessManager_util.hpp: record, setForwardStates, resetSolutions", "src/interfaces/linear_algebra/linearAlgebraInterface_util.hpp: writeStateToFile, readStateVectorFromFile", "src/managers/analysis/analysisManager_solve.hpp: run", "src/managers/solver/solverManager_solvers.hpp: transientSolver"]}
{"id": "C141", "title": "A sampling study runs every sample as if it were run alone", "statement": "A study over sampled parameters makes one forward run for every point of the table, in the order of the table, with the parameters of that point in force; the number of runs is the number of samples asked for or the number of points; row i of every output is the result of the run of point i alone, whatever ran before; the files written hold the points and the responses; where adjoint solutions are asked for, those of every sample are kept.", "quantifier": "all tables of points, numbers of samples, forward and adjoint runs, time levels, previous solutions, options of the study", "why_tests_cant": "The tests fix one table and compare one printed number; whether a sample depends on what ran before, or on a level of the parameters that the test never uses, needs all tables and all runs.", "anchors": ["src/managers/analysis/analysisManager_solve.hpp: UQSolve", "src/managers/analysis/analysisManager_util.hpp: writeSolutionToText", "src/managers/parameter/parameterManager_update.hpp: updateParams(vector, int)", "src/managers/postprocess/postprocessManager_util.hpp: resetSolutions"]}
{"id": "C142", "title": "A restart takes up a run where it was left", "statement": "A run restarted from the files of an earlier one starts from the recorded state: the files are found under the names they were written with, the state in force at the start is the last (or the recorded) state of the earlier run, the solve asked for is made, and doing it twice gives the same; a file that does not exist stops the run.", "quantifier": "all recorded states, physics sets, base names, kinds of runs, contents of the disk, forward steps", "why_tests_cant": "There is no test of a restart that goes on with a run; the tests load one state and stop.", "anchors": ["src/managers/analysis/analysisManager_solve.hpp: restartSolve", "src/managers/analysis/analysisManager_util.hpp: recoverSolution", "src/managers/solver/solverManager_util.hpp: getRestartSolution, setInitial"]}
{"id": "C143", "title": "Settings from several files are put together as the user wrote them", "statement": "The settings of a run are those of the main input file; a section that the main file does not have is taken from the file named for it; a section of the main file is never changed by another file; a required section without a file, a file that does not exist or has an unknown ending stops the run; two optional sections are empty if missing; auxiliary sections are accepted only together.", "quantifier": "all main files, files of sections, nested lists of settings, names of files, contents of the disk", "why_tests_cant": "All regression inputs hold their sections in matching files with the right ending; what a misplaced, misspelt or unreadable section does is a statement about all trees of settings.", "anchors": ["src/interfaces/user/userInterface.hpp: getFileType, UserInterface", "src/driver.cpp: main"]}
{"id": "C144", "title": "The hybridised shallow water module solves the shallow water equations", "statement": "Used alone in one or two dimensions the module adds the weak form of the conservation laws of depth and discharge with the flux F(S), on every side of an element the flux of the trace through the side plus the stabilisation chosen in the input; the Roe-like stabilisation damps every wave with the absolute value of its speed, the other with the largest one; far-field conditions take outgoing characteristics from inside and incoming ones from the given state; slip walls let no water through; uniform flow is steady; side conditions it does not know stop the run.", "quantifier": "all depths, discharges, traces, gravity, unit normals, quadratures, basis functions, lists of variables, options, side conditions", "why_tests_cant": "A regression test fixes one mesh and one flow; that the matrices diagonalise the derivative of the flux at every state and normal is an identity over all of them, and a wrong sign for one normal shows only at one end of the domain.", "anchors": ["src/physics/shallowwaterHybridized.cpp: shallowwaterHybridized, volumeResidual, boundaryResidual, computeFlux, setWorkset, computeFluxVector, computeStabilizationTerm, computeBoundaryTerm, eigendecompFluxJacobian", "src/physics/shallowwaterHybridized.hpp: matVec"]}
{"id": "C145", "title": "The neo-Hookean module computes the stress of its stored energy", "statement": "For every displacement with a positive volume ratio the stress is mu F + (lambda ln J - mu) F^-T, the derivative of the documented stored energy; turning the deformed body turns the stress and causes none; the Cauchy stress is symmetric; for small displacements the stress is that of linear elasticity; the residual is the derivative of the energy less the work of the sources; every side receives the condition of each component, and the force reported to the coarse scale balances the residual of an interface.", "quantifier": "all displacement gradients, Lame parameters, rotations, directions, quadratures, basis functions, conditions on the components of a side, one, two and three dimensions", "why_tests_cant": "A regression test compares one solution with stored values; that no rotation causes stress, or that the stress is the gradient of the energy, ranges over all deformations, and a test with symmetric displacement gradients cannot see exchanged entries of the cofactor matrix.", "anchors": ["src/physics/neohookean.cpp: neohookean, defineFunctions, volumeResidual, boundaryResidual, computeFlux, computeStress", "src/physics/neohookean.hpp: class documentation"]}
{"id": "C146", "title": "The derived stresses are the von Mises stress and the magnitude of the stress", "statement": "The elasticity modules report \"VM stress\", the von Mises stress of the Cauchy stress at the point, and \"MAG stress\", its magnitude. Neither depends on the choice of the axes; the von Mises stress vanishes exactly for a pressure and does not change when the deformed body is turned; a problem posed in the plane reports what the same deformation reports in space.", "quantifier": "all stresses, displacement gradients, Lame parameters and rotations in one, two and three dimensions", "why_tests_cant": "Derived quantities are only written for visualisation and compared with stored files of one problem; independence of the axes ranges over all rotations and stresses.", "anchors": ["src/physics/linearelasticity.cpp: getDerivedNames, getDerivedValues", "src/physics/elastodynamics.cpp: getDerivedNames, getDerivedValues", "src/physics/neohookean.cpp: getDerivedNames, getDerivedValues"]}
{"id": "C147", "title": "Data-consistent inversion", "statement": "A data-consistent inversion weights every sample by the ratio of the observed density of its responses to their predicted density. Both are probability densities; the predicted one is estimated from all the samples by normal kernels, the observed one is the density that was asked for. A sample is accepted with a probability proportional to its ratio, the files contain every sample and exactly the accepted ones in order, the reported mean, variance and rate are those of the accepted samples, the reported information is not negative when the mean ratio is one, and if the observed data are the predictions every sample is accepted. Settings that make no sense are reported.", "quantifier": "all numbers of samples and responses, all response values, all settings, all data files, all sequences of random numbers", "why_tests_cant": "The inversion is random; a test can only compare one run with a stored output. That the estimate integrates to one and that the acceptance probability is the ratio are statements about integrals and all random numbers.", "anchors": ["src/managers/analysis/analysisManager_solve.hpp: DCISolve", "src/managers/uq/uqManager.cpp: KDE, computeVariance, rejectionSampling", "src/tools/data.cpp: importData"]}
{"id": "C148", "title": "The variable-density module solves the low-Mach equations", "statement": "For the module VDNS in one, two and three dimensions, the residual of each velocity component is the quadrature of its weak momentum equation with the full Newtonian stress, the residual of the temperature that of the energy equation, and the residual of the pressure that of the constraint on the divergence, which is conservation of mass of the ideal gas; SUPG, PSPG and grad-div stabilisation add terms that vanish for exact solutions; Neumann data enter through the sides; in a closed system the background pressure follows from the integrals over the domain (constant mass, or the balance of heat and volume flux with inflow) and the residuals of the next step use it.", "quantifier": "all dimensions, numbers of basis functions, offsets, quadrature points, states, material functions, stabilisation parameters, parameters of the input file, integrals and sequences of time steps", "why_tests_cant": "The regression test is one steady channel without closed system, grad-div term or three dimensions; the equalities hold for every state, and the loss of the background pressure is a statement about every step of every run.", "anchors": ["src/physics/variableDensityNS.cpp:VDNS::volumeResidual", "src/physics/variableDensityNS.cpp:VDNS::boundaryResidual", "src/physics/variableDensityNS.cpp:VDNS::setupIntegratedQuantities", "src/physics/variableDensityNS.cpp:VDNS::updateIntegratedQuantitiesDependents", "src/physics/variableDensityNS.cpp:VDNS::computeTau", "src/tools/workset.cpp:Workset::getParameter", "src/managers/parameter/parameterManager_update.hpp:updateDynamicParams"]}
{"id": "C149", "title": "Bounds of an optimisation are those of the input", "statement": "With \"Bound Optimization Variables\" the optimiser is confined to exactly the box of the input: every unknown of a discretized parameter lies between its lower_bound and upper_bound, every component of an active parameter between the two numbers of its line in the bounds file, at every time level, parameters without bounds are free, and projecting onto the box gives the nearest point of it; the elementwise operations, reductions and the dimension of the optimisation vector act on all its numbers whatever their distribution over components.", "quantifier": "all lists of parameters, usages, bounds files, unknowns of discretized parameters, iterates, elementwise functions and reductions", "why_tests_cant": "The regression tests with bounds use only discretized static parameters and never reach the bounds of scalars; the statement ranges over all combinations of parameters and files.", "anchors": ["src/managers/parameter/parameterManager_setup.hpp:ParameterManager::setupParameters", "src/managers/parameter/parameterManager_access.hpp:ParameterManager::getActiveParamBounds", "src/managers/parameter/parameterManager_access.hpp:ParameterManager::getDiscretizedParamBounds", "src/managers/analysis/analysisManager_solve.hpp:AnalysisManager::ROLSolve", "src/managers/analysis/analysisManager_solve.hpp:AnalysisManager::ROL2Solve", "src/optimization/MrHyDE_OptVector.hpp:applyBinary, applyUnary, reduce, dimension"]}
{"id": "C150", "title": "An optimisation run writes what belongs to its result and leaves the settings alone", "statement": "An optimisation writes no solution while the optimiser is at work; afterwards, if output was requested, the file output_after_optimization.exo has the solution for the point the optimiser returned, with the source disabled a second file has the solution without it, the file named in the input is untouched, and output is on again exactly if it was on before. Generated data are one forward run with the parameter datagen set to one, and generating them does not change what the objective and its gradient mean. The parameters saved to file, read by a later run, are the returned point, the same as in final_params_.dat.", "quantifier": "all sequences of value and gradient requests of any optimiser, all returned points, all parameter vectors, settings, earlier files and forward models", "why_tests_cant": "Which requests the optimiser makes depends on tolerances and on the problem; a test sees one history, usually ending with an accepted step.", "anchors": ["src/managers/analysis/analysisManager_solve.hpp:AnalysisManager::ROLSolve", "src/managers/analysis/analysisManager_solve.hpp:AnalysisManager::ROL2Solve", "src/managers/postprocess/postprocessManager_exodus.hpp:PostprocessManager::setNewExodusFile", "src/managers/postprocess/postprocessManager_objective_gradient.hpp:PostprocessManager::computeSensitivities", "src/optimization/MrHyDE_OptVector.hpp:print(filebase)", "src/physics/physicsBase.cpp:PhysicsBase::updateFlags"]}
{"id": "C151", "title": "Every number in the output file belongs to the element it stands at", "statement": "Writing the solution puts at each element of a block the values of that element: nodal variables and parameters by their nodal values, constant ones by their value, vector variables and parameters by the average of each component over the element (integral divided by measure), variables on faces by the average over the faces, extra fields and derived quantities by the value of the expression or quantity with the state and parameters of that element.", "quantifier": "all splittings of a block into groups, any contents of the working tables before, any number of physics sets, variables, bases, discretized parameters, fields and modules, any values", "why_tests_cant": "Tests compare one output of one mesh with one set and one group size; values taken from another group look plausible.", "anchors": ["src/managers/postprocess/postprocessManager_exodus.hpp:PostprocessManager::writeSolution", "src/managers/assembly/assemblyManager_gather.hpp:AssemblyManager::performGather", "src/managers/assembly/assemblyManager_util.hpp:AssemblyManager::computeSolutionAverage", "src/managers/assembly/assemblyManager_util.hpp:AssemblyManager::computeParameterAverage", "src/managers/assembly/assemblyManager_util.hpp:AssemblyManager::getSolutionAtNodes", "src/managers/postprocess/postprocessManager_derived_quantities.hpp:PostprocessManager::getDerivedQuantities", "src/tools/workset.cpp:Workset::isParameter"]}
{"id": "C152", "title": "Every field written to the output file has been declared", "statement": "A run that asks for output declares, before the mesh is completed, every field it later writes, with the same name and the same kind (nodal or per element): for all variables of all sets, discretized parameters, extra fields, extra cell fields, derived quantities, mesh data, group and database numbers and subgrid models, and for every sample of an uncertainty study. A run is not ended by output of something the input allows.", "quantifier": "all inputs: any sets, variables and kinds, fields, modules, parameters, options, and any number of samples", "why_tests_cant": "Which names are declared and which are written is decided at two places far apart, and depends on the combination of options; a test covers one combination.", "anchors": ["src/interfaces/mesh/meshInterface_construct.hpp:MeshInterface::finalize", "src/managers/postprocess/postprocessManager_exodus.hpp:PostprocessManager::writeSolution", "src/managers/assembly/assemblyManager_util.hpp:AssemblyManager::setMeshData", "src/managers/analysis/analysisManager_solve.hpp:AnalysisManager::UQSolve", "src/managers/parameter/parameterManager_setup.hpp:ParameterManager::setupDiscretizedParameters"]}
{"id": "C153", "title": "Data points and values are those of the files", "statement": "Points read from a file are those of its lines, in order and with any number of coordinates; record i of a file of values holds the numbers of line i, separated by blanks or commas; point i and record i belong together, also on a grid (first coordinate fastest), so an integration point or element gets the values of the line of the closest point; files that do not fit together are refused. Values given at integration points reach the modules.", "quantifier": "all texts of the files, numbers of coordinates, grids, meshes and integration rules, and all settings of mesh data", "why_tests_cant": "A test reads a few files written by the same hand; empty or long lines, commas, four coordinates, and files of different length appear only in other input.", "anchors": ["src/tools/data.cpp:Data::importPoints,importGridPoints,importDataOneFile", "src/managers/assembly/assemblyManager_util.hpp:AssemblyManager::setMeshData,importQuadratureData", "src/managers/uq/uqManager.cpp:UQManager::UQManager", "src/managers/assembly/assemblyManager_groups.hpp:AssemblyManager::updateGroupData"]}
{"id": "C154", "title": "Sensors are compared with their own measurements", "statement": "Each process keeps exactly the sensors it owns, in the order of the lines of the file of points, each with the point, the owner and the measurements of its own line and the times of the first line of the data file; over all processes each sensor in the mesh counts once in the misfit. Files that do not fit together are refused; a process without sensors needs none. Sensors given as fields of the mesh file lie at the places in the file, in their element, with their own datum.", "quantifier": "all texts of the files, numbers of processes, distributions of elements to processes and groups, mesh fields, times and responses", "why_tests_cant": "Tests use a few sensors on one process with complete lines; gaps among the sensors of a process, ragged lines and groups of several elements appear only in other runs.", "anchors": ["src/managers/postprocess/postprocessManager_sensors.hpp:PostprocessManager::importSensorsFromFiles,importSensorsFromExodus,importSensorsOnQuadrature,importSensorsOnBndryQuadrature", "src/managers/postprocess/postprocessManager_objectives.hpp:PostprocessManager::computeObjective"]}
{"id": "C155", "title": "The state at a sensor is the finite element function of its element", "statement": "The solution recorded at a sensor and the fields used when a response is evaluated there are, for every variable of every physics set and every component, the sums of the unknowns of the element of the sensor times the basis functions (or their gradients) at the sensor, whatever the bases of the block and their order.", "quantifier": "all bases and orders of bases, physics sets, variables, numbers of components, local numberings, global vectors, and values of the basis functions", "why_tests_cant": "Tests have one physics set with one kind of basis; the order of the bases and the current set follow from the input.", "anchors": ["src/managers/postprocess/postprocessManager_sensors.hpp:PostprocessManager::computeSensorBasis,computeSensorSolution", "src/managers/postprocess/postprocessManager_objectives.hpp:PostprocessManager::computeObjective", "src/tools/workset.cpp:Workset::setSolutionPoint,setSolutionGradPoint"]}
{"id": "C156", "title": "What the adjoint receives is the derivative of the objective reported", "statement": "For an integrated control, an integrated response, sensors or a comparison with recorded states: along every differentiable curve of states the derivative of the objective reported equals minus the sum, over the recorded times, of the vector handed to the adjoint problem times the velocity of the state, on any number of processes; computing it leaves the assembly data unchanged.", "quantifier": "all types of objectives, numbers of processes, groups, elements, points, sensors, times and unknowns, local numberings, sets of fixed unknowns, differentiable point functions, curves of states", "why_tests_cant": "Finite difference checks sample one direction at one state with one tolerance; regularisations of the state, several sets, face variables and ghosted parameters do not occur in them.", "anchors": ["src/managers/postprocess/postprocessManager_objective_gradient.hpp:PostprocessManager::computeObjectiveGradState", "src/managers/postprocess/postprocessManager_objectives.hpp:PostprocessManager::computeObjective,reportObjective", "src/managers/assembly/assemblyManager_scatter.hpp:AssemblyManager::scatterRes", "src/managers/assembly/assemblyManager_gather.hpp:AssemblyManager::performGather"]}
{"id": "C157", "title": "The matrix of a Newton step is the derivative of its residual", "statement": "The residual tested and used in a Newton step and the matrix of its linear system belong to one function of the unknowns: the two assemblies give the same residual in every row, along every differentiable path of the unknowns the residual in a free row changes at minus the rate given by the matrix, and for affine terms one exact solve makes the residual of the row zero. Each group adds exactly the terms switched on for its block.", "quantifier": "all meshes, blocks, groups, local numberings, terms with partial derivatives, states, paths, time integrators, stages, numbers of workers and schedules in each of the assemblies", "why_tests_cant": "Tests see whether the iteration converges on a few problems; a matrix slightly off still converges, schedules are not reproducible, and the combinations of processes without elements and subgrid models or switched-off terms are not run.", "anchors": ["src/managers/assembly/assemblyManager_jacres.hpp:AssemblyManager::assembleRes,assembleJacRes", "src/managers/assembly/assemblyManager_scatter.hpp:AssemblyManager::scatterRes,scatter", "src/managers/solver/solverManager_solvers.hpp:SolverManager::nonlinearSolver", "src/tools/workset.cpp:Workset::computeSolnTransientSeeded,computeSolnSteadySeeded", "src/tools/groupMetaData.cpp:GroupMetaData::GroupMetaData"]}
{"id": "C158", "title": "Strongly prescribed values are the projection of the user's data", "statement": "On the sides where a condition is prescribed strongly, the state receives the finite element function whose trace (the value; the part along the side for edge elements; the normal component for face elements) is closest to the data given in the input for that side and that component at that time; data that are such a trace are reproduced exactly, and no other unknown is changed. With \"scalar data\" every side gets its own number.", "quantifier": "all meshes, sides, sets of variables and types of bases, normals, quadrature rules with non-negative weights, data, prescribed sets of unknowns, solutions of the projection system, states before the call, sequences of calls in time", "why_tests_cant": "Tests compare solutions on boxes, with axis-parallel sides and constant or all-boundary data; sides at an angle, mixed component entries, different numbers on different sides and data changing in time cannot be enumerated.", "anchors": ["src/managers/assembly/assemblyManager_constraints.hpp:AssemblyManager::getDirichletBoundary,computeConstraintProjection", "src/managers/assembly/assemblyManager_mass.hpp:AssemblyManager::getMassBoundary", "src/interfaces/physics/physicsInterface_boundary_conditions.hpp:PhysicsInterface::getDirichlet,getDirichletVector", "src/interfaces/physics/physicsInterface_functions.hpp:PhysicsInterface::defineFunctions", "src/managers/solver/solverManager_util.hpp:SolverManager::projectDirichlet,setDirichlet", "src/managers/solver/solverManager_setup.hpp:SolverManager::setupFixedDOFs"]}
{"id": "C159", "title": "A change of the subgrid model hands the fine state over", "statement": "When a coarse group changes its subgrid model between two steps, the new model starts from the fine state that is closest to the one the old model had at the end of the last step: fine states both models can represent are kept exactly, the mean of each variable over the coarse elements is kept, and the time of the state goes with it. Groups that keep their model, and all other states, are not touched, and each model works on exactly the groups that use it.", "quantifier": "all pairs of subgrid models (meshes, bases, points, variables), fine states, solutions of the projection system, numbers of models and groups, assignments before and after", "why_tests_cant": "Tests use two models on uniform fine meshes with one variable; meshes with elements of different sizes, several variables, many groups changing in one step and blocks without subgrid models cannot be enumerated.", "anchors": ["src/managers/multiscale/multiscaleManager.cpp:MultiscaleManager::initialize,update", "src/subgrid/subgridDtN.cpp:SubGridDtN::getIP,getIPWts,evaluateBasis2,addMacro,updateActive", "src/subgrid/subgridDtN_solver.cpp:SubGridDtN_Solver::getProjectionMatrix,evaluateBasis2", "src/interfaces/discretization/discretizationInterface_basis.hpp:DiscretizationInterface::evaluateBasis"]}
{"id": "C160", "title": "Fine states follow the accepted coarse steps", "statement": "In a transient run with subgrid models the fine state of a coarse group at the end of a run is what the accepted coarse steps make of the initial fine state, each step with the coarse values of the last evaluation of each stage; it belongs to the coarse time, repeated evaluations within a step and rejected steps leave no trace, and a second run of the same program starts again from the initial state.", "quantifier": "all fine problems, initial states, sequences of accepted and rejected steps of any lengths, numbers and abscissae of stages, numbers of evaluations per stage", "why_tests_cant": "Tests take a few accepted steps of one method from a zero fine state; rejected steps, nonzero initial states, all stage patterns and repeated runs cannot be enumerated.", "anchors": ["src/subgrid/subgridDtN_solver.cpp:SubGridDtN_Solver::solve,nonlinearSolver,forwardSensitivityPropagation", "src/subgrid/subgridDtN.cpp:SubGridDtN::setUpSubgridModels,advance,advanceStage", "src/subgrid/subgridDtN2.cpp:SubGridDtN2::setUpSubgridModels,advance,advanceStage", "src/managers/solver/solverManager_solvers.hpp:SolverManager::transientSolver", "src/managers/multiscale/multiscaleManager.cpp:MultiscaleManager::completeStage,completeTimeStep,reset"]}
{"id": "C161", "title": "Errors reported for subgrid models", "statement": "The error reported for a subgrid model at a time is the square root of the sum of the squared errors over exactly the coarse groups that use this model, independently of the division among processes; over all models every coarse group counts once.", "quantifier": "all contributions of fine groups, numbers of models, assignments of coarse groups to models, divisions among processes (also processes without coarse groups)", "why_tests_cant": "Tests report the error of one static model on one process for one list of errors; assignments of many groups to several models on many processes cannot be enumerated.", "anchors": ["src/subgrid/subgridDtN.cpp:SubGridDtN::computeError,updateActive", "src/subgrid/subgridDtN2.cpp:SubGridDtN2::computeError", "src/managers/postprocess/postprocessManager_error_estimation.hpp:PostprocessManager::computeError", "src/managers/postprocess/postprocessManager_util.hpp:PostprocessManager::report", "src/managers/multiscale/multiscaleManager.cpp:MultiscaleManager::initialize"]}
{"id": "C162", "title": "Kinetic modules: every species has its own equation", "statement": "With the kinetic modules (VFP0d2v, VFP1d2v, VFP) every species H, C, G, E is governed by its own equation: the residual tested with the functions of a species is the integral of its rate of change minus its source plus the announced transport in velocity space, so its integral changes by its source only. With the module phase elliptic the same holds on the product of the spatial and the phase mesh for every phase element.", "quantifier": "all numbers and values of basis functions, points, weights, rates, sources, positions of the variables, numbers of phase elements, other registered functions", "why_tests_cant": "A run converges for one set of data also when an equation is wrong; that a row is the weak form of its own species for all data is not settled by sampled residuals.", "anchors": ["src/physics/vlasov_fokker_planck_0d2v.cpp:VFP0d2v::volumeResidual", "src/physics/vlasov_fokker_planck_1d2v.cpp:VFP1d2v::volumeResidual", "src/physics/vlasov_fokker_planck.cpp:VFP::volumeResidual", "src/physics/phase_elliptic.cpp:PhaseElliptic::defineFunctions,volumeResidual", "src/managers/function/functionManager_evaluate.hpp:FunctionManager::evaluate"]}
{"id": "C163", "title": "Frequency-domain potentials: two real rows per complex equation", "statement": "With the module maxwells_freq_pot the rows of the real and imaginary variables are the real and imaginary parts of the complex equations for the vector and scalar potential (\u03bd(curl A\u00b7curl w + div A div w) - \u03c9\u00b2\u03b5A\u00b7w - i\u03c9\u03b5\u2207(\u03c6v) - J\u00b7w and \u03b5\u2207\u03c6\u00b7\u2207v - \u03c9\u00b2\u03b5\u00b2\u03bc\u03c6v - i\u03c9\u03b5 div(vA) - \u03c1v), integrated over the elements; currents and charges given on sides enter; rates of change enter the equation of their own variable; the built-in media and sources of the verification problems belong to the stated solutions.", "quantifier": "all states, derivatives, media, frequencies, sources, basis functions, integration points and weights, dimensions, offsets of the variables; all points of space for the built-in data", "why_tests_cant": "A single regression problem has equal elements, constant weights and data on Dirichlet sides only; the algebra of eight rows with dozens of products each is not determined by finitely many residuals.", "anchors": ["src/physics/maxwells_fp.cpp:maxwells_fp::volumeResidual", "src/physics/maxwells_fp.cpp:maxwells_fp::boundaryResidual", "src/physics/maxwells_fp.cpp:maxwells_fp::getPermeability,getInvPermeability,getPermittivity,getInteriorCurrent,getInteriorCharge,getBoundaryCurrent"]}
{"id": "C164", "title": "Maxwell's equations with a control current", "statement": "The module maxwell_control solves the equations of the module maxwell with a control current added: (\u03b5 n\u00b2 E_t + \u03c3E + J + control, V) - (B/\u03bc, curl V) = 0 and Faraday's law; without control it is the module maxwell; every component of the control given by the user acts; the absorbing condition takes energy out.", "quantifier": "all fields, coefficients, controls, bases, points, weights, settings of active variables and leap frog, stages, dimensions", "why_tests_cant": "There is no regression problem for the module; that a control current enters as a current for all controls and bases is not settled by sampled residuals.", "anchors": ["src/physics/maxwell_control.cpp:maxwell_control::volumeResidual", "src/physics/maxwell_control.cpp:maxwell_control::boundaryResidual", "src/physics/maxwell_control.cpp:maxwell_control::defineFunctions"]}
{"id": "C165", "title": "Residual and Jacobian are evaluated on worksets that exist and hold the same conditions", "statement": "On every process and for every element block with elements there, the residual and the Jacobian of a step are evaluated at the time, step length, stage, time integrator, physics set and step number that the solver announced for this block, the same for both, whatever the order in which these were announced and whichever other blocks have no elements on the process; the derivative type of the run holds the derivatives of every block.", "quantifier": "all numbers of blocks with or without elements, with or without subgrid models, all numbers of physics sets, all settings of the derivative type, all sequences of calls of solver and assembly", "why_tests_cant": "The conditions travel to nine tables of worksets through separate calls; a test exercises one derivative type, few blocks and one order of calls.", "anchors": ["src/managers/assembly/assemblyManager_workset.hpp:AssemblyManager::createWorkset", "src/managers/assembly/assemblyManager_workset.hpp:AssemblyManager::updateStage", "src/managers/assembly/assemblyManager_workset.hpp:AssemblyManager::updatePhysicsSet", "src/managers/assembly/assemblyManager_workset.hpp:AssemblyManager::setWorksetButcher", "src/managers/assembly/assemblyManager_workset.hpp:AssemblyManager::updateWorksetTime", "src/managers/assembly/assemblyManager_construct.hpp:AssemblyManager::AssemblyManager", "src/managers/solver/solverManager_setup.hpp:SolverManager::finalizeWorkset", "src/managers/assembly/assemblyManager_jacres.hpp:AssemblyManager::assembleJacRes"]}
{"id": "C166", "title": "With parameter mass the optimiser measures discretized parameters by the inner product of the fields", "statement": "With the option \"use parameter mass\" the inner product of two vectors of discretized parameters in an optimisation is the integral (by the quadrature of the mesh) of the product of the two fields, summed over the time levels of dynamic parameters; in particular it depends on the fields and not on the mesh, and only the zero field has norm zero.", "quantifier": "all meshes and distributions of unknowns, all bases of the parameters, all quadrature weights, all numbers of time levels, with and without lumped masses", "why_tests_cant": "A test optimises with one basis on one mesh and sees only the optimiser's iterates; the inner product is never compared with the integral.", "anchors": ["src/managers/assembly/assemblyManager_mass.hpp:AssemblyManager::getParamMass", "src/managers/solver/solverManager_setup.hpp:SolverManager::setupDiscretizedParamMass", "src/managers/parameter/parameterManager_access.hpp:ParameterManager::getCurrentVector", "src/optimization/MrHyDE_OptVector.hpp:MrHyDE_OptVector::dot"]}
{"id": "C167", "title": "Expressions and integrals see the integration points and weights of their own element", "statement": "For every element of every group the coordinates x, y, z at which user expressions are evaluated are those of the element's integration points (up to \"database TOL\" when a table of representatives is used), and the weights used in the integrals are those of the element, whichever storage options (\"use basis database\", \"use ip database\", \"storage proportion\"), kind of mesh, workset size and number of processes are chosen.", "quantifier": "all meshes and integration points, all partitions into groups, all tolerances, all combinations of storage options, simple meshes of all sizes on all layouts of processes", "why_tests_cant": "A wrong coordinate only shows when an expression depends on position, and the tables change with mesh, grouping and number of processes; a test runs one combination.", "anchors": ["src/managers/assembly/assemblyManager_database.hpp:AssemblyManager::identifyVolumetricIPDatabase", "src/managers/assembly/assemblyManager_database.hpp:AssemblyManager::buildVolumetricIPDatabase", "src/managers/assembly/assemblyManager_database.hpp:AssemblyManager::buildDatabase", "src/managers/assembly/assemblyManager_groups.hpp:AssemblyManager::allocateGroupStorage", "src/tools/group.cpp:Group::computeBasis", "src/tools/group.cpp:Group::getIntegrationPts"]}
{"id": "C168", "title": "The gradient with respect to discretized parameters is the derivative of the objective", "statement": "In a steady optimisation run the numbers added to the gradient of a discretized parameter are the derivative of the objective in that parameter with the state following through the solved equations, for every mesh, boundary condition and solver option, and whatever the number of threads and the order in which they add.", "quantifier": "all residuals differentiable in state and parameters, all meshes, all sets of strongly prescribed unknowns, all paths of parameters with solved states, all objectives differentiable along them, all numbers of workers and schedules of the three assemblies", "why_tests_cant": "A finite difference check compares one direction at one point with a tolerance; entries of the wrong row, wrong sign at prescribed unknowns or an option applied to the wrong matrix show only for particular meshes and parameters.", "anchors": ["src/managers/postprocess/postprocessManager_objective_gradient.hpp:PostprocessManager::computeSensitivities", "src/managers/postprocess/postprocessManager_objective_gradient.hpp:PostprocessManager::computeDiscreteSensitivities", "src/managers/assembly/assemblyManager_jacres.hpp:AssemblyManager::assembleJacRes", "src/managers/assembly/assemblyManager_jacres.hpp:AssemblyManager::updateParamJac", "src/managers/assembly/assemblyManager_jacres.hpp:AssemblyManager::fixDiagJac", "src/managers/assembly/assemblyManager_scatter.hpp:AssemblyManager::scatterJac", "src/managers/assembly/assemblyManager_constraints.hpp:AssemblyManager::setJacobianConstraints", "src/tools/workset.cpp:Workset::computeParamSteadySeeded"]}
{"id": "C169", "title": "Adjoint and sensitivity evaluations with subgrid models", "statement": "In an adjoint solve or gradient evaluation of a run with subgrid models every fine model returns the solution of the transposed fine problem, linearised at the fine states of the forward run (one for each sub-step), with the coarse adjoint as data, independent of the iteration limit; and the gradient of scalar parameters contains the fine adjoint times the derivative of the whole fine residual, summed over sub-steps. Evaluations of the forward residual need no adjoint and leave the gradient at zero.", "quantifier": "all fine problems (residual, matrix, solver, norm), all states and coarse values, all iteration limits, tolerances and numbers of sub-steps, steady and transient runs", "why_tests_cant": "No test can range over fine problems and states; that a pointer is never set on any path, that stored vectors share memory, or that a result is proportional to an iteration limit is a statement about all executions.", "anchors": ["src/subgrid/subgridDtN_solver.cpp:SubGridDtN_Solver::solve", "src/subgrid/subgridDtN_solver.cpp:SubGridDtN_Solver::nonlinearSolver", "src/subgrid/subgridDtN_solver.cpp:SubGridDtN_Solver::forwardSensitivityPropagation", "src/subgrid/subgridDtN.cpp:SubGridDtN::subgridSolver", "src/subgrid/subgridDtN2.cpp:SubGridDtN2::subgridSolver"]}
{"id": "C170", "title": "Coarse unknowns without an equation in blocks with subgrid models", "statement": "In blocks with subgrid models, an unknown of a coarse element to which no fine model contributes gets as Newton increment the average of the other unknowns of its variable; all equations the fine models contribute to are solved unchanged, in any units, for every coupling of variables, and the adjoint's matrix is the transpose of the forward one.", "quantifier": "all numbers of variables and unknowns, all residuals and derivatives of a coarse element, all tolerances", "why_tests_cant": "Tests use a few fine models whose elements have full diagonals; the claim is about every pattern of vanishing rows and all values.", "anchors": ["src/managers/assembly/assemblyManager_jacres.hpp:AssemblyManager::fixDiagJac", "src/managers/assembly/assemblyManager_jacres.hpp:AssemblyManager::assembleJacRes", "src/managers/assembly/assemblyManager_jacres.hpp:AssemblyManager::updateJac", "src/managers/assembly/assemblyManager_jacres.hpp:AssemblyManager::updateRes"]}
{"id": "C171", "title": "Evaluations see the current parameter values, with derivative seeds exactly when derivatives are taken", "statement": "In every sequence of parameter updates, forward runs and adjoint runs, each evaluation of a function of the input file (initial and boundary data, residual, objective and their derivatives) uses the parameter values last set, those of its time step when they depend on time, and the scalar parameters carry derivatives exactly in the evaluations made to differentiate with respect to them, each active component its own.", "quantifier": "all sequences of updates, forward and adjoint runs, all numbers of parameters, sets, stages, time steps and failed steps, all values", "why_tests_cant": "Whether an evaluation is stale or unseeded depends on the order of all previous calls; the regression tests of gradients use objectives without explicit dependence on scalar parameters, and data that do not depend on them.", "anchors": ["src/managers/parameter/parameterManager_sacadoize.hpp:ParameterManager::sacadoizeParams", "src/managers/parameter/parameterManager_update.hpp:ParameterManager::updateDynamicParams", "src/managers/solver/solverManager_models.hpp:SolverManager::forwardModel", "src/managers/solver/solverManager_models.hpp:SolverManager::adjointModel", "src/managers/solver/solverManager_solvers.hpp:SolverManager::steadySolver", "src/managers/solver/solverManager_solvers.hpp:SolverManager::transientSolver", "src/managers/solver/solverManager_util.hpp:SolverManager::setDirichlet", "src/managers/solver/solverManager_util.hpp:SolverManager::setInitial", "src/managers/postprocess/postprocessManager_objective_gradient.hpp:PostprocessManager::computeObjectiveGradParam", "src/managers/postprocess/postprocessManager_objective_gradient.hpp:PostprocessManager::computeSensitivities"]}
{"id": "C172", "title": "Derivative of the misfit at sensors with respect to discretised parameters", "statement": "For an objective of type \"sensors\", the explicit derivative in the gradient handed to the optimiser is, for every discretised parameter, the derivative of weight times squared difference between response and measurement summed over all sensors, on any number of processes, for any numbering of the unknowns and for every kind of state variable.", "quantifier": "all sets of sensors, response functions, parameter spaces, element numberings, global numberings and numbers of scalar parameters; all bases of the state", "why_tests_cant": "Tests run one numbering on one or two processes with scalar variables; the claim is about all numberings, spaces and responses.", "anchors": ["src/managers/postprocess/postprocessManager_objective_gradient.hpp:PostprocessManager::computeObjectiveGradParam", "src/managers/postprocess/postprocessManager_objective_gradient.hpp:PostprocessManager::computeSensitivities", "src/tools/workset.cpp:Workset::setParamPoint", "src/tools/workset.cpp:Workset::setParamGradPoint"]}
{"id": "C173", "title": "The files of the sensors", "statement": "After a run, the text files for sensor solutions (one for each component of each variable of the block) hold a line with the recorded times and one line for each sensor in the order of the input: its place, then the values of that component at all recorded times; the HDF5 files and the files of responses hold the same values; files of different objectives are different; on any number of processes.", "quantifier": "all numbers of processes, sensors, times, variables and dimensions, all ways the sensors are spread over the processes, all recorded values", "why_tests_cant": "Tests compare one file of one run; the claim is about all distributions of sensors over processes and all kinds of sensors.", "anchors": ["src/managers/postprocess/postprocessManager_util.hpp:PostprocessManager::report", "src/managers/postprocess/postprocessManager_sensors.hpp:PostprocessManager::importSensorsOnQuadrature"]}
{"id": "C174", "title": "Far field of the integrated transform", "statement": "With output type \"integrated dft\" the file holds, for every frequency and every direction of the asked grid of angles, amplitude, power and cross section in both polarisations, computed from the moduli of the potentials; the potentials are the integrals over the boundary, over all processes, of the tangential transformed field, at each quadrature point that of its own sensor.", "quantifier": "all numbers of groups, points, directions, frequencies, sensors and processes, all fields, all settings", "why_tests_cant": "A test compares the file of one run with a stored one; the claim relates every number in it to all points of all processes.", "anchors": ["src/managers/postprocess/postprocessManager_util.hpp:PostprocessManager::report"]}
{"id": "C175", "title": "The file of flux responses", "statement": "Each report adds to the file of flux responses one line with the values of all flux responses in the order of the input, each the flux through its sides, over all processes, of the solve just finished; the file holds the lines of this program only, one for each solve.", "quantifier": "all sequences of recorded times, solves and reports, all numbers of processes, responses and values, all earlier contents of the file", "why_tests_cant": "A test runs one steady solve in an empty directory; the claim is about all histories.", "anchors": ["src/managers/postprocess/postprocessManager_util.hpp:PostprocessManager::report", "src/managers/postprocess/postprocessManager_flux_response.hpp:PostprocessManager::computeFluxResponse", "src/tools/postprocessTools.hpp:fluxResponse"]}
{"id": "C176", "title": "Files of quadrature points and weights", "statement": "If asked for, the files of each block hold the coordinates and the weights of all quadrature points of the block, line by line in the same order, so that sums with them are the quadrature rule of the block; the files of a side hold points, weights and normals of the points on that side of the block; on any number of processes.", "quantifier": "all blocks, sides, divisions into groups and elements, points, weights, normals, numbers of processes and distributions", "why_tests_cant": "A test compares one file of one mesh on one process; the claim is about all distributions of the points.", "anchors": ["src/managers/assembly/assemblyManager_util.hpp:AssemblyManager::getQuadratureData", "src/managers/assembly/assemblyManager_util.hpp:AssemblyManager::getboundaryQuadratureData", "src/managers/postprocess/postprocessManager_util.hpp:PostprocessManager::writeQuadratureData", "src/managers/postprocess/postprocessManager_util.hpp:PostprocessManager::writeBoundaryQuadratureData"]}
{"id": "C177", "title": "Tables of earlier steps and stages fit the integrator", "statement": "Whatever multistep order and tableau are asked for, for the start and for the rest of a run, the values and time derivatives an assembly works with are those of the integrator in place with the states of the earlier steps and stages; in every run, also when the integrator changes in between, nothing is read or written outside the tables that hold them; the same for fine models that keep such tables for their groups.", "quantifier": "all orders, tableaux, numbers of start-up steps, sequences of runs, accepted and rejected steps, groups, stages and iterates, states", "why_tests_cant": "A test runs one integrator on one problem; an access outside a table need not show, and the change of the integrator, further runs and rejected steps can come in any order.", "anchors": ["src/managers/solver/solverManager_setup.hpp:SolverManager::setBackwardDifference", "src/managers/solver/solverManager_setup.hpp:SolverManager::setButcherTableau", "src/tools/groupMetaData.cpp:GroupMetaData::setSolutionFields", "src/managers/assembly/assemblyManager_gather.hpp:AssemblyManager::performGather", "src/tools/workset.cpp:Workset::computeSolnTransientSeeded", "src/tools/group.cpp:Group::resetPrevSoln", "src/tools/boundaryGroup.cpp:BoundaryGroup::updateStageSoln", "src/subgrid/subgridDtN_solver.cpp:SubGridDtN_Solver::solve"]}
{"id": "C178", "title": "A stochastic optimisation run", "statement": "In a stochastic optimisation every sample is used by exactly one process with its weight, and the sums over the samples of all processes are those over all samples; the files of samples and weights a run writes give the same samples and weights to a run that reads them; a run that starts from a file starts from its numbers; the objectives and outputs written after the optimisation are, for every sample in order, those of this sample with the final parameters.", "quantifier": "all samples, weights, numbers of processes, sequences of calls of the optimiser and final points, files, parameters, steady and transient problems", "why_tests_cant": "A test runs one optimiser on a few samples, mostly on one process; which point the optimiser asks for last, how many samples there are for how many processes and what is in the files vary without bound.", "anchors": ["src/managers/analysis/analysisManager_solve.hpp:AnalysisManager::ROLStochSolve", "src/optimization/MrHyDE_Sample_Set_Reader.hpp:Sample_Set_Reader", "src/optimization/MrHyDE_Stochastic_Objective.hpp:Stochastic_Objective_MILO", "src/managers/analysis/analysisManager_util.hpp:AnalysisManager::readExoForwardSolve", "src/managers/postprocess/postprocessManager_exodus.hpp:PostprocessManager::setNewExodusFile"]}
{"id": "C179", "title": "Output of the fine solutions", "statement": "With 'write subgrid solution' every fine model has a file of its own on every process; the mesh in it consists of the fine elements of all coarse elements of the model, each with its own vertices; a variable has in the file, at every vertex or in every fine element, the value the model computed there, and zero where another model is used; only registered fields are written; every step of the run is in the file; extra fields and derived quantities are those of the current fine solution, at the element they belong to.", "quantifier": "all numbers of coarse groups and of elements in them, reference meshes, fine solutions, models in use, variables of all types, extra fields, suffixes, sequences of output steps", "why_tests_cant": "A test compares one small file by eye; which groups use which model changes in the run, and a file with values at the wrong elements or with zeros looks like any other.", "anchors": ["src/subgrid/subgridDtN2.cpp:SubGridDtN2::finalize", "src/subgrid/subgridDtN2.cpp:SubGridDtN2::setupCombinedExodus", "src/subgrid/subgridDtN2.cpp:SubGridDtN2::writeSolution", "src/subgrid/subgridDtN.cpp:SubGridDtN::writeSolution", "src/subgrid/subgridMeshFactory.cpp:SubGridMeshFactory::modifyMesh", "src/managers/assembly/assemblyManager_util.hpp:AssemblyManager::computeSolutionAverage"]}
{"id": "C180", "title": "Fine groups of further coarse groups", "statement": "A subgrid model that serves several groups of coarse elements has for each of them one fine group and one boundary group per side: every fine element occurs with its own vertices and the dofs of its place in the fine mesh; every flagged side of a fine element is in the boundary group with the number and the dofs of the coarse element it lies in and with the values of that element's coarse basis, in its orientation, at its points; and every coarse group starts from the projection of the initial data. This holds whatever the sizes of the groups and the shapes of fine and coarse elements.", "quantifier": "all reference meshes and side maps, numbers of coarse groups and elements in them, orientations, dof tables, geometries, coarse bases, numbers of refinements, initial data", "why_tests_cant": "The reuse of the first group's tables starts with the second coarse group, that is with more coarse elements than the workset size; small tests have one group. Wrong orientations change values only for some numberings of the mesh.", "anchors": ["src/subgrid/subgridDtN2.cpp:SubGridDtN2::setUpSubgridModels", "src/subgrid/subgridDtN2.cpp:SubGridDtN2::createNewGroups", "src/subgrid/subgridDtN2.cpp:SubGridDtN2::createNewBoundaryGroups", "src/subgrid/subgridDtN2.cpp:SubGridDtN2::setBoundaryGroupAuxLIDs", "src/subgrid/subgridDtN2.cpp:SubGridDtN2::computeMacroBasisSubgridIP", "src/subgrid/subgridDtN2.cpp:SubGridDtN2::setInitial", "src/subgrid/subgridMacroData2.hpp:SubGridMacroData2::setMacroIDs", "src/subgrid/subgridTools2.cpp:SubGridTools2::getBoundaryGroups"]}
{"id": "C181", "title": "Subgrid models as described in the input", "statement": "Every section of a subgrid model in the input becomes one model, in the order of the input and at most as many as asked for, with the type, the coarse block and the usage function that its section states; its usage function is the one evaluated in its block; it receives the data of its block on every process; without 'usage' every block uses a model of its own; a type, a block or a way of selection that does not exist is refused.", "quantifier": "all sections, entries and orders of the input, block names of the coarse mesh, numbers of models, usage expressions, processes", "why_tests_cant": "Tests give correct words and one or two models in one block; misspelt words, further blocks and processes without elements of the first block are never combined.", "anchors": ["src/managers/multiscale/multiscaleManager.cpp:MultiscaleManager::MultiscaleManager", "src/managers/multiscale/multiscaleManager.cpp:MultiscaleManager::setMacroInfo", "src/subgrid/subgridDtN2.cpp:SubGridDtN2::SubGridDtN2", "src/managers/assembly/assemblyManager_util.hpp:AssemblyManager::identifySubgridModels"]}
{"id": "C182", "title": "True solutions of the input", "statement": "Every true solution in the input is either refused or measured: the value, the gradient, the divergence, the curl, the components of a vector or the values on faces of a variable are compared, component by component and at the right points, with exactly the expressions the input gives for them; missing components, values that are no expressions and quantities a basis does not have are refused.", "quantifier": "all sets of variables of a block with their basis types, dimensions 1 to 3, all sections of true solutions", "why_tests_cant": "The verification tests have complete and correct sections; what happens to a misspelt or superfluous entry, or to each of the combinations of basis, dimension and quantity, is not seen in them: an entry that is ignored looks like an entry that was not written.", "anchors": ["src/managers/postprocess/postprocessManager_error_estimation.hpp:PostprocessManager::addTrueSolutions", "src/managers/postprocess/postprocessManager_error_estimation.hpp:PostprocessManager::computeError", "src/tools/workset.cpp:Workset::addSolutionField", "src/tools/workset.cpp:Workset::getSolutionField"]}
{"id": "C183", "title": "Discretized parameters are set up as the input asks", "statement": "Every discretized parameter has, on every block, the unknowns and the basis functions of the type and order given in the input; every one of its unknowns starts with the initial value given for it on every process; a parameter that is not dynamic has one value for all time steps and a dynamic one has the value of the current step.", "quantifier": "all blocks with all variables, all discretized parameters, all distributions of the elements over processes and all orders of communication, all time indices", "why_tests_cant": "Tests use one block, one parameter with the family of the variable and one process; what happens with other block orders, other lists of variables and a mixture of static and dynamic parameters depends on positions in lists that coincide in all of them.", "anchors": ["src/interfaces/physics/physicsInterface_construct.hpp:PhysicsInterface::importPhysics", "src/managers/parameter/parameterManager_setup.hpp:ParameterManager::setupDiscretizedParameters", "src/managers/parameter/parameterManager_util.hpp:ParameterManager::setInitialParams", "src/managers/parameter/parameterManager_access.hpp:ParameterManager::getDiscretizedParams", "src/tools/workset.cpp:Workset::createSolutionFields"]}
{"id": "C184", "title": "The mesh interface follows the Mesh section of the input", "statement": "The mesh has the dimension, the element type, the box, the cells and the blocks given in the section Mesh, spread over all processes by default; node values written to the output file are those of the nodes of each element of every block; a Phase Mesh section gives a usable phase space; and the mesh interface of a fine scale answers the cell type of the fine elements.", "quantifier": "all Mesh sections with any entries present or absent, all numbers of processes, all cell types, all node values, all Phase Mesh dimensions", "why_tests_cant": "The entries are strings with defaults; tests cover few combinations with one block and one element type, and never mixed meshes or phase spaces.", "anchors": ["src/interfaces/mesh/meshInterface_construct.hpp:MeshInterface::MeshInterface", "src/interfaces/mesh/meshInterface_stk.hpp:MeshInterface::setSTKMesh", "src/interfaces/mesh/meshInterface_util.hpp:MeshInterface::getMyPhaseNodes", "src/managers/postprocess/postprocessManager_exodus.hpp:PostprocessManager::writeSolution", "src/subgrid/subgridDtN.cpp:SubGridDtN::setUpSubgridModels", "src/subgrid/subgridMeshFactory.cpp:SubGridMeshFactory::buildMesh"]}
{"id": "C185", "title": "Basis functions and quadrature rules follow the input", "statement": "On every block each variable and discretized parameter is approximated with basis functions of the type and order given for it on the elements of the block, a combination that does not exist ends the run, the quadrature orders given in the discretization settings of the physics sets are used, and without them the rules are exact for products of any two basis functions of the block.", "quantifier": "all lists of variables and parameters with any type strings and orders, all cell types, all numbers of physics sets and blocks, all settings", "why_tests_cant": "Type strings and orders are free; the tests use low orders, one physics set and one block, where the settings of the first set and of the last block are those of all.", "anchors": ["src/interfaces/discretization/discretizationInterface_construct.hpp:DiscretizationInterface::DiscretizationInterface", "src/interfaces/discretization/discretizationInterface_basis.hpp:DiscretizationInterface::getBasis", "src/interfaces/discretization/discretizationInterface_basis.hpp:DiscretizationInterface::evaluateBasisNewQuadrature"]}
{"id": "C186", "title": "The data of the initial state are those of the input", "statement": "Whatever way of setting the initial state is chosen (projection on elements, projection on faces, interpolation), the values that enter it are for every variable and component those of the expression or number given for it under 'Initial conditions' of its physics set, and zero where nothing is given; a way that does not exist ends the run.", "quantifier": "all physics sets with any lists of variables and types, all entries, all functions defined by the modules before, all dimensions, all values of 'initial type'", "why_tests_cant": "Names, types and entries are free; the tests use one kind of variable and the matching way, where the functions that are evaluated happen to be the ones that are defined.", "anchors": ["src/interfaces/physics/physicsInterface_functions.hpp:PhysicsInterface::defineFunctions", "src/interfaces/physics/physicsInterface_initial.hpp:PhysicsInterface::getInitial", "src/interfaces/physics/physicsInterface_initial.hpp:PhysicsInterface::getInitialFace", "src/managers/solver/solverManager_util.hpp:SolverManager::setInitial"]}
{"id": "C187", "title": "Freeing memory before the solve does not change the run", "statement": "With 'enable memory purge' a run does what it does without this option: nothing that is still read after the purge has been removed by it, and the values read are the same.", "quantifier": "all settings of output, solver, storage of basis functions, discretized parameters, initial state and microstructure, all numbers of processes, physics sets, blocks, forward evaluations and recorded solutions, all contents of the data", "why_tests_cant": "No test sets the option; which data are still read depends on the combination of settings of four parts of the code, and reading a cleared array is undefined behaviour that a run need not show.", "anchors": ["src/driver.cpp:main", "src/interfaces/discretization/discretizationInterface_util.hpp:DiscretizationInterface::purgeOrientations", "src/interfaces/discretization/discretizationInterface_util.hpp:DiscretizationInterface::purgeLIDs", "src/interfaces/mesh/meshInterface_util.hpp:MeshInterface::purgeMesh", "src/interfaces/linear_algebra/linearAlgebraInterface_construct.hpp:LinearAlgebraInterface::setupLinearAlgebra", "src/managers/postprocess/postprocessManager_exodus.hpp:PostprocessManager::writeSolution"]}
{"id": "C188", "title": "Weights of the variables are those of the input", "statement": "The weight a variable has in the mass of explicit steps and in the reported norm of the solution is the number given for it under 'Mass weights' and 'Norm weights' of its physics set, one where nothing is given; an entry that cannot be used ends the run. In the norm every unknown of every set carries the weight of its variable.", "quantifier": "all lists of entries of any type, all blocks, physics sets, variables, groups of elements and numberings of unknowns, all states the worksets may have been left in", "why_tests_cant": "Types of the entries and numbers of variables of several sets are free; the tests have one physics set and check no norm with weights other than one.", "anchors": ["src/interfaces/physics/physicsInterface_functions.hpp:PhysicsInterface::defineFunctions", "src/managers/assembly/assemblyManager_mass.hpp:AssemblyManager::getWeightVector", "src/managers/postprocess/postprocessManager_util.hpp:PostprocessManager::computeWeightedNorm"]}
{"id": "C189", "title": "Element data of the mesh file is read as it is stored", "statement": "With 'have element data' every element variable of the Exodus file of the mesh is available under its name with the values the file holds for the elements of the process, on every block and for every name; a file that cannot be read ends the run with a message, and 'have nodal data' makes the nodal variables available.", "quantifier": "all files (names, numbers of variables and elements, blocks, steps, values), all numbers of processes and ranks", "why_tests_cant": "Names of variables, numbers of blocks and of processes are free; the tests use the setting with two files only.", "anchors": ["src/interfaces/mesh/meshInterface_exodus.hpp:MeshInterface::readExodusData", "src/interfaces/mesh/meshInterface_construct.hpp:MeshInterface::finalize", "src/interfaces/mesh/meshInterface_util.hpp:MeshInterface::breakupList"]}
{"id": "C190", "title": "The movie of an optimisation shows the parameters of each evaluation", "statement": "With 'create optimization movie' each forward solve adds a frame, numbered by the evaluations from zero on, in which every discretized parameter has at every node or element of the mesh the value it had in that solve, on any number of processes and for any type of basis.", "quantifier": "all blocks, groups of elements, numberings of unknowns, vectors of parameters, types of bases, sequences of evaluations and numbers of levels in time", "why_tests_cant": "The movie is not used by the tests; numberings and the division into processes and groups are free.", "anchors": ["src/managers/postprocess/postprocessManager_exodus.hpp:PostprocessManager::writeOptimizationSolution", "src/managers/assembly/assemblyManager_gather.hpp:AssemblyManager::performGather", "src/managers/parameter/parameterManager_access.hpp:ParameterManager::getDiscretizedParams", "src/interfaces/mesh/meshInterface_construct.hpp:MeshInterface::finalize", "src/managers/solver/solverManager_models.hpp:SolverManager::forwardModel"]}
{"id": "C191", "title": "Training data for the choice of subgrid models", "statement": "With the subgrid model selection ML the first steps solve every subgrid problem with every model. For each element and solve the file of a model gets one line of values and time derivatives of the coarse state, and in the same place a label that is one exactly if the residual of the model is within the tolerances of the residual of the last model. The run itself goes on with the last model. After the given number of training steps the files are written, collection ends, and the trained program chooses.", "quantifier": "all sequences of solves and updates, all numbers of models, elements, variables and values, all states, residuals and tolerances", "why_tests_cant": "No test uses the selection; sequences of solves, numbers of models and tables larger than a group are free, and a label next to the wrong line only makes the choice worse.", "anchors": ["src/managers/multiscale/multiscaleManager.cpp:MultiscaleManager::evaluateMacroMicroMacroMap", "src/managers/multiscale/multiscaleManager.cpp:MultiscaleManager::update", "src/tools/groupMetaData.cpp:GroupMetaData", "src/subgrid/subgridDtN_solver.cpp:SubGridDtN_Solver::solve"]}
{"id": "C192", "title": "Active parameters from a text file", "statement": "A forward run that takes its active parameters from a text file (readExo+forward with TxtFile) uses the numbers of the file in the order of the parameters, level after level if parameters change in time; all other parameters stay. The file of final parameters of an optimisation gives its parameters back. A file that is missing, too short or has other words is an error.", "quantifier": "all lists of parameters with their types, sizes and values, all numbers of levels and of unknowns of fields, all files", "why_tests_cant": "No test uses the option; numbers of levels, the mix of active and other parameters and the content of the file are free, and wrong values only show as another solution.", "anchors": ["src/managers/analysis/analysisManager_util.hpp:AnalysisManager::readExoForwardSolve", "src/managers/parameter/parameterManager_update.hpp:ParameterManager::updateParams", "src/managers/parameter/parameterManager_access.hpp:ParameterManager::getCurrentVector", "src/optimization/MrHyDE_OptVector.hpp:MrHyDE_OptVector::print"]}
{"id": "C193", "title": "Objectives on several blocks", "statement": "An objective is evaluated on the blocks its 'blocks' entry lists, on all blocks without one, once for each; a sublist named like a block replaces the default. Its value over several blocks is that of their union: integrals and misfits add, the misfit of the whole state and the norm of the parameters count once, a target is compared with the response over the union.", "quantifier": "all sections of objectives, all names and numbers of blocks, all texts, all integrals, misfits, parameters, weights and targets", "why_tests_cant": "Tests have one block or objectives without targets on several; names of blocks are free, and a wrong factor or a block too many only shifts the optimum.", "anchors": ["src/managers/postprocess/postprocessManager_objectives.hpp:PostprocessManager::addObjectiveFunctions", "src/managers/postprocess/postprocessManager_objectives.hpp:PostprocessManager::computeObjective", "src/managers/postprocess/postprocessManager_objectives.hpp:PostprocessManager::reportObjective", "src/managers/postprocess/postprocessManager_construct.hpp:PostprocessManager::setup"]}
{"id": "C194", "title": "Parameters set by name or type, with parameters that change in time", "statement": "When data is generated for an inversion the parameter datagen is one in every step of the generating run and zero in every later run. In a study with samples every step of the run of a sample sees the values of this sample. No other parameter changes.", "quantifier": "all lists of parameters, all numbers of levels and steps, all sequences of samples, all values", "why_tests_cant": "The tests that generate data have no scalar parameters that change in time; the number of steps and samples and the mix of parameters are free, and a wrong level only shows as a wrong optimum or a wrong spread.", "anchors": ["src/managers/parameter/parameterManager_util.hpp:ParameterManager::setParam", "src/managers/parameter/parameterManager_util.hpp:ParameterManager::isParameter", "src/managers/parameter/parameterManager_update.hpp:ParameterManager::updateParams", "src/managers/parameter/parameterManager_update.hpp:ParameterManager::updateDynamicParams", "src/managers/analysis/analysisManager_solve.hpp:AnalysisManager::ROL2Solve"]}
{"id": "C195", "title": "Integrated quantities of several modules, of the input file and on several blocks", "statement": "Each integrated quantity is reported under its name with the integral of its own integrand, those of the physics modules first, then those of the input file, on exactly the blocks that ask for some. Every physics module finds in its places the values of its own quantities, whatever the other modules and the input file ask for. The background pressure of a closed system comes from the integrals over the domain.", "quantifier": "all lists of physics sets and modules, all quantities of the input file, all functions defined before, all blocks, all values of the integrals", "why_tests_cant": "The tests have one module with quantities on one block; the combinations of modules, names, locations and blocks are free, and a mixed-up place only shows as a wrong number in the residual.", "anchors": ["src/managers/postprocess/postprocessManager_integrated_quantities.hpp:PostprocessManager::addIntegratedQuantities", "src/managers/postprocess/postprocessManager_integrated_quantities.hpp:PostprocessManager::computeIntegratedQuantities", "src/managers/postprocess/postprocessManager_construct.hpp:PostprocessManager::setup", "src/tools/workset.cpp:Workset::addIntegratedQuantities", "src/physics/thermal.cpp:thermal::setupIntegratedQuantities", "src/managers/function/functionManager_create.hpp:FunctionManager::addFunction"]}
