# Formal model of MrHyDE in Lean 4: design

## Method

The C++ source in `/repo/src` is read as text and transcribed, function by
function, to small total computable Lean functions.  Every definition of the
model cites file and lines.  Loops become structural recursion, folds, or
fuelled recursion with a proof that the fuel never runs out.  Mutation becomes
returning the new state.  Undefined behaviour (index out of bounds, unsigned
underflow, division by zero where the code divides) is a distinct outcome
(`none` / an error constructor) wherever a property touches it.

Layout of `/verif/lean/Verif/`:

* `Verif/<Area>/Model.lean`: the transcription, with citations;
* `Verif/<Area>/Spec.lean` (when the specification is not a one-liner): the
  independent specification, which does not mention helpers of the model;
* `Verif/<Area>/Lemmas.lean`: helper lemmas;
* `Verif/<Area>/Props.lean`: the property theorems only, each followed by a
  non-vacuity `example`, plus the counterexample theorems for properties that
  the code violates.

## Reading the mutation log

`seeded/LOG.jsonl` has one line per edit of a definition that still compiles as a
model.  "caught" means that at least one theorem or example no longer compiles.
A proof script can also fail although its statement would still hold, so "caught"
is an upper bound; every edit that was *not* caught was looked at by hand and either
led to a tighter theorem (`tightened`) or is marked as an equivalent edit.

## Trusted base

* Lean 4.33.0 kernel.  Axioms: at most `propext`, `Classical.choice`,
  `Quot.sound` (printed for each property theorem in `Verif/Axioms.lean`).
  No own axioms, no `sorry`, no `native_decide`, no `bv_decide`.
* The transcription itself (the code is not executed here).
* Numbers: `ScalarT` is `double`.  Wherever the property is about control
  flow or data movement the value type is an arbitrary type, so rounding is
  irrelevant.  Where arithmetic laws are needed the value type is an arbitrary
  (ordered) field, i.e. rounding error, overflow, infinities are *not*
  modelled; NaN is only modelled where stated.
* Automatic-differentiation types are modelled by their values only, except in
  the modules about seeding, where the slot structure is modelled.
* Kokkos kernels are modelled as running their iterations in some order; the
  order-independence theorems quantify over the order.  Memory model, device
  copies, atomics hardware: not modelled.
* Trilinos (Tpetra, Teuchos, Intrepid2, Panzer, ROL), MPI and the file system
  are not modelled; their calls appear as parameters or as the obvious
  mathematical operation (sum into entry, copy, all-reduce).

## Properties: what is modelled, how it is proved

| id | modelled | proof |
|----|----------|-------|
| C01 | `Interpreter::split/isScalar/isOperator`, the classification order and the 100-pass loop of `decomposeFunctions`, the recursive `evaluate` with its operation tables | textual grammar with independent `render`/`sem`; induction over the expression shows each split yields exactly the operands; refinement of the flat branch vector to a recursive reading; evaluation equals `sem` |
| C02 | same | special case of the same grammar with a leading minus |
| C03 | same | counterexample theorem (code violates it), partial theorem for unsigned exponents |
| C04 | `split` parenthesis counter | invariant: counter = opening minus closing |
| C05 | `checkDepDataType` as path-marking depth-first search on an arbitrary finite graph | error iff a cycle is reachable; the search always terminates |
| C06 | flags returned by the same search | induction over the search |
| C07 | `addFunction`, `hasFunction` | refinement to "association list, first wins", induction over histories |
| C08 | the loops for emax/emin/emean | counterexample, plus what the loop really computes |
| C09, C10 | `SolutionStorage` | induction over store histories |
| C11 | `CompressedView` | direct for all shapes |
| C12 | `Sparse3DView` | loop invariant |
| C13 | `Data::findClosest*` | fold invariant |
| C14 | sample round robin | arithmetic |
| C15 | `SplitComm` | arithmetic; counterexample for non-divisible sizes |
| C16 | UQ statistics | ordered field |
| C17 | root filter of the KL expansion | fold invariant |
| C18 | field-name classification | string induction; counterexamples for names containing the markers |
| C19 | BDF weights | polynomial identities over any field of characteristic 0 |
| C20 | Butcher tables | finite table checked completely by kernel computation over the rationals |
| C21 | stage reconstruction and step update | algebra over a module |
| C22 | transient loop | termination measure, invariant |
| C23 | history shift | invariant over accept/fail histories; counterexample with failures |
| C24, C25 | Newton loop | induction on iterations; counterexample for failure reporting |
| C26 | PCG | invariant over iterations |
| C27, C28, C29 | parameter manager | list induction |
| C30 | `MrHyDE_OptVector` | algebra |
| C31, C32 | objective caches as state machines | invariants over call histories; counterexample histories |
| C33, C34 | grouping of elements and sides | permutation theorems |
| C35 - C38 | gather / scatter / constraints | sums over element lists, permutation invariance |
| C39 | basis database | fold invariant |
| C40 | multiscale model selection | loop analysis |
| C41, C42 | workset field cache and lookups | invariants; non-termination witness for the parameter lookup |
| C43 - C46 | same as C01: aliases, splitting of `<=`/`>=`, spaces, unknown names | the general evaluation theorem of C01 for what holds, universal statements about `split` and concrete programs for what does not |
| C47, C48 | the sampler of the UQ manager; random numbers are an input stream | fold invariant; algebra |
| C49, C51 | constructor of the solver manager and the switch from start-up to main integrator | case analysis of the input lists; induction over steps and solves |
| C50 | strong values through the stages of a Runge-Kutta step | algebra over a field, data arbitrary functions of time |
| C52 | seeding of solution and time derivative in the workset (dual numbers, all slots) | algebra over any commutative ring |
| C53, C54 | dynamic parameters against the time loop; the choice of the derivative type | loop induction; arithmetic |
| C55, C57 | dual vectors; sums over batches | algebra |
| C56 | parameter state after an optimiser's requests (any history) | state machine invariant |
| C58, C63 | boundary groups: geometry and side bases recovered from stored numbers | fold invariant; counterexample families |
| C59, C60, C77 | `setBCData`, `setDirichletData` | list induction, exact characterisation of the listed degrees of freedom |
| C61 | the two assembly paths, forward and adjoint | refinement of both to the same sums |
| C62, C64 | `fix zero rows`, switches for volume and face terms | fold invariants |
| C65, C66 | which numbers are seeded for older steps, parameters, stages | algebra of dual numbers |
| C67, C69 | forward loop, adjoint loop, `computeSensitivities` for linear(ised) problems | summation by parts by induction over the steps, any number of steps |
| C68 | projection of boundary data | sums over sides |
| C70, C71 | load balancing factor, state seen by the subgrid selection | universal counterexamples |
| C72 - C76 | `computeObjective`, `reportObjective`, `computeObjectiveGradParam` | sums over processes, steps, groups, elements, points; dual numbers |
| C78 - C81 | mass matrices: assembled, matrix free, stored, compressed, lumped | bilinear sums over elements |
| C82, C83 | `record`, output frames, adjoint weights | induction over the steps |
| C84 - C86 | sensors: location, grid, files per process | exactly-one theorem over processes; arithmetic; strings |
| C87, C88 | `collectResponses`, accumulation over solves | index arithmetic; induction over histories |
| C89 | discrete Fourier transform at sensors | complex exponentials, exact pi |
| C90 - C94 | weighted norm, cell fields, integrated quantities, fluxes, error norms | sums, any partition among groups and processes |
| C95 | `fluxConditions`, choice of the derivative type, both assemblies of a boundary element | sums over points, degrees of freedom, variables; case analysis of the choice |
| C96 | block settings of the physics interface | list induction over parameter lists; names as character lists |
| C97 | list of approximation spaces, `getUniqueIndex`, basis numbers of parameters | fold invariant; scan lemma |
| C98 | `breakupList`, `PhysicsImporter` | round trip by induction, first-occurrence lemma |
| C99 | texts of numbers in conditions | arithmetic of rounding; list induction |
| C100 | `thermal`: volume, boundary, flux | loops as sums over points (`Modules/Weak.lean`), ring identities |
| C101 | `linearelasticity`: stress, volume, boundary, flux | array writes evaluated, finite sums, ordered field for the energy |
| C102 | `stokes`: volume residual with both stabilisations, empty boundary residual | loop nests as data, finite sums |
| C103 | `navierstokes`: volume residual with SUPG, PSPG, buoyancy; boundary residual | loop nests as data, finite sums |
| C104 | `porous`: volume residual, side conditions, flux for the coarse scale | loop nests as data, finite sums |
| C105 | `lagrangeInterpolate`, coarse times, sub-step times, `advanceStage` (times only) | field identities, induction over sub-steps |
| C106 | `updateFlux` with the writers of the modules, averaged flux | nested loops as sums, induction over groups, modules and sub-steps |
| C107 | `nonlinearSolver`, `forwardSensitivityPropagation` (one process, one stage), sub-step loop, `resetPrevSoln` | induction over iterations and sub-steps, linear algebra over any field |
| C108 | `maxwell::volumeResidual`, `boundaryResidual` (absorbing condition) | sums of loop nests, dimension by dimension, linear algebra |
| C109 | `elastodynamics::volumeResidual`; its stress, sides and flux are the text of `linearelasticity` (C101) and not modelled again | sums of loop nests, induction-free sums over bases |
| C110 | `cdr`, `cdr2`, `shallowice`, `ellipticPrior` (volume and flux), `ode`; the side terms of `cdr` are empty in the code, its SUPG parameter is computed and not used | sums of loop nests |
| C111 | `Burgers::volumeResidual`, `boundaryResidual`, entropy viscosity, SUPG | sums of loop nests, ordered field for the viscosity |
| C112 | `KuramotoSivashinsky::volumeResidual` | sums of loop nests |
| C113 | `shallowwater::volumeResidual` (sides and flux are empty in the code) | sums of loop nests inside one loop over points, field identities |
| C114 | `hartmann::volumeResidual`, `boundaryResidual` | sums of loop nests, positivity in an ordered field |
| C115 | `SubGridTools::createSubMesh` (inline meshes), `refineSubCell` for all shapes, `checkExistingSubNodes` (`sqrt(val)<tol` written as a comparison of squares) | refinement of the arrays to lists of vertices by induction over elements and levels; bilinear and trilinear identities; counterexamples |
| C116 | `getListOfPhysicalNodes`, `getPhysicalNodes`, `getPhysicalConnectivity`, `getPhysicalSideinfo`, `getUniqueSides` of `SubGridTools`; types of conditions and reuse of groups in `SubGridDtN::setUpSubgridModels` | induction over lists and loops, counterexamples |
| C117 | `DiscretizationInterface`: `getPhysicalVolumetricBasis`, `getPhysicalFaceBasis`, `getPhysicalBoundaryBasis`, `evaluateBasis`, `evaluateBasisGrads`, nodal bases | linear algebra over any field, counterexamples |
| C118 | `DiscretizationInterface`: face and boundary integration data, `getMeasure`, `computeCellMeasure` (library); `getElementSize`, `computeSize`, `computeFaceSize` | vector algebra over ℝ, polynomial identities in the corners |
| C119 | `porousMixed` and `porousMixedHybrid`: `volumeResidual`, `boundaryResidual`, `faceResidual`, `computeFlux`, `updatePerm` | loops as sums of terms, bilinear identities over a field |
| C120 | `porousMixed`: `KLindices`, `updateKLPerm`, derived permeability; `klexpansion`: `computeRoots`, `getEval`, `getEvec`; `wells::addWellSources` | induction on lists and loops; fundamental theorem of calculus for the eigenpairs; intermediate value theorem for the roots |
| C121 | `simplemeshmanager.hpp`: `SimpleMeshManager_Rectangle`, `_Rectangle_Parallel`, `_Brick` (nodes, cells, edges, side sets, `localToGlobal`, `globalToLocal`, `isShared`) | nested loops as lists of equal blocks, position = mixed-radix number; injectivity by division with remainder; tiling by induction on the number of parts |
| C122 | `MeshInterface` constructor (simple mesh and phase mesh), `buildSimpleDOFManagers` | composition with C121; induction on the two loops over the nodes |
| C123 | `LinearSolverContext`, `getNewMatrix` and its variants, `linearSolver`, `getBelosParameterList`, resets, Jacobian part of `nonlinearSolver` | induction on the passes of a run and on the runs of a session; case split on options |
| C124 | `setupLinearAlgebra` (maps, counts, graphs), allocation choices and their users | membership in nested loops; permutation of digit expansions; sums bounded term by term |
| C125 | `euler` (numbers, ideal gas, inviscid fluxes, eigendecomposition, stabilisation, far-field and slip conditions, residuals) | derivative of the flux in closed form; eigenvectors as wave forms for an orthonormal frame; loops by the framework of C54 |
| C126 | `helmholtz::volumeResidual`, `boundaryResidual` | real and imaginary parts of a complex form; loops by the framework of C54 |
| C127 | `AssemblyManager::setInitial`, `setInitialFace`, `getInitial`, `SolverManager::setInitial` | system of the projection against an independent quadrature of the data and of finite element functions (orthogonality, distance), induction over blocks and elements; concrete meshes for the negations; one process, exact solve of the system assumed |
| C128 | `MeshInterface::generateNewMicrostructure`, `getElementCenters`, `AssemblyManager::importNewMicrostructure`, `importMeshData`, `AnalysisManager::updateRotationData`, `workset::allocateRotations` | seeds, spacing and rotations for every stream of numbers; induction over blocks, groups and elements with the running number; the external nearest-point search is a parameter with its contract as hypothesis; exact numbers |
| C129 | `CrystalElastic` (constructor, `computeLatticeTensor`, `updateParams`, `computeStress`, `computeRotatedTensor`) | algebra of sums over indices for every tensor and matrix, entry by entry comparison with the usual six-number notation, product of elementary rotations over the reals, executions of the steps of threads; one element and one point, exact numbers |
| C130 | `Solver/Steady.lean`: `forwardModel`, `steadySolver`, `adjointModel` for steady problems, the one linear solve of the adjoint, `SolutionStorage::extract` by a converted time, `computeSensitivities`; solves of a set and linear solver are functions, assembly gives a linearisation at a state; discretized parameters and other objectives left out | invariants of the sweep over the sets (fixed points, one-way dependence, rate), adjoint identity for every linearisation; concrete problem `x = p^2` for the initial time |
| C131 | the four HFACE bases: which functions are nonzero at a point, their order, tags and node coordinates, the batches of points (Discretization/Face.lean); the polynomials on the line are given | positions in concatenated lists (constant block length), case analysis over the sides, for every order and every family of polynomials |
| C132 | porousWeakGalerkin: volume, face and boundary residuals, flux, coarse variable; the reference functions of HDIV_AC and their Piola map (Modules/WeakGalerkin.lean); orientation signs are left out | loop-nest lemmas of Modules/Loops, sums over coefficients, linear algebra over any field; bilinear maps for the basis |
| C133 | `incompressibleSaturation.cpp` (volume residual, fluxes, sides) | loops at every function (induction over points); sums with a partition of unity; failure for every set with two variables by the structure of the loop |
| C134 | `levelSet.cpp` (two passes of the residual, stabilisation, output lists), over ℝ with division as `Option` | folds over points; bounds on square roots; failure for every element with a vanishing velocity |
| C135 | `rothermal.cpp` (base equations, rate, corrections), `levelSet.cpp` (`Hphi_scale`), over ℝ with division and powers as `Option` | closed formula; factorisation of the damping by moisture; Cauchy-Schwarz for the corrections; rotation invariance |
| C136 | `ExoReader.cpp` (geometry from coordinates), `rothermal.cpp` (lookup, nodal interpolation), any ordered field with floor; calls of the Exodus library not modelled | sorted lists without repetition are determined by their members; floor and clamp; equivalence for numberings |
| C137 | `msphasefield.cpp` (residual on a group with its persistent vectors, mobility, parameters, positions of the phases); generation of disks not modelled (its result is never used) | induction over points and elements with the invariant that the vectors begin with the values of the first point; finite sums |
| C138 | `maxwell_bianisotropic.cpp` (settings, names registered and evaluated, both volume residuals, boundary term); square root abstract | names as data, lookup as a function; loops by the general lemmas, tensors by ring identities; components ignored by extensionality |
| C139 | `analysisManager_solve.hpp` (reading and writing of parameters and gradients around the analysis), `getCurrentVector`, `updateParams`; text as lists of words, printing with twelve digits as rounding of rationals | file names by injectivity of decimal numerals; disk as a function, written files by induction over time levels; digits by the logarithm of base ten |
| C140 | `writeStateToFile`, `readStateVectorFromFile`, `recoverForwardStateFromFile`, both `setForwardStates`, adjoint branch of `AnalysisManager::run`, walk of the adjoint loop over the stored states (contribution of each step abstract) | disk as a function, files by induction over steps and sets; storage invariant for one list; the loop of times by induction |
| C141 | analysisManager_solve.hpp (UQSolve), analysisManager_util.hpp 289-325, parameterManager_update.hpp 69-84 | A forward run is any function of the parameters in force and the solution store; induction over the samples |
| C142 | analysisManager_solve.hpp (restartSolve, recoverSolution), setInitial | Disk as a partial function of names; forward steps arbitrary |
| C143 | userInterface.hpp (all) | Parameter lists as ordered trees; setParameters by recursion over the other tree; induction over the sections |
| C144 | shallowwaterHybridized.cpp (all) | Derivative of the flux by calculus; matrices checked against it for every state and unit normal; spectral functions on eigenvectors; loops by induction |
| C145 | neohookean.cpp (all but getDerivedValues, see C146; setWorkset) | Matrix identities over the reals (inverse, adjugate), calculus for energy and small displacements, loops by induction |
| C146 | getDerivedNames, getDerivedValues of linearelasticity.cpp, elastodynamics.cpp, neohookean.cpp | Second invariant of the deviator and traces of conjugates; equality cases of sums of squares |
| C147 | DCISolve, KDE, computeVariance, rejectionSampling, importData | Fubini and the Gaussian integral for the kernels; Lebesgue measure of the acceptance set; log inequality for the information |
| C148 | src/physics/variableDensityNS.cpp (all) | Loop nests against a specification with stress tensor and residual functionals; induction over time steps for the parameter views; real arithmetic for the stabilisation parameter |
| C149 | parameterManager_setup.hpp:52-86, 143-151, 413-442; parameterManager_access.hpp:298-387; MrHyDE_OptVector.hpp:286-321, 1248-1329; analysisManager_solve.hpp:401-415, 625-639 | closed forms of the reading and filling loops by induction; reductions as one fold |
| C150 | analysisManager_solve.hpp:342-581, 586-771; postprocessManager_exodus.hpp:656-663, 1010-1016; postprocessManager_objective_gradient.hpp:1532-1535, 1592-1616; MrHyDE_OptVector.hpp:1370-1394; physicsBase.cpp:161-164 | invariant over the list of requests, refinement of the objective of C31, commuting file updates |
| C151 | postprocessManager_exodus.hpp:14-517; assemblyManager_gather.hpp:183-235; assemblyManager_util.hpp:148-289; postprocessManager_derived_quantities.hpp:13-67; workset.cpp:1800-1811 | state machine of the shared tables, invariant over the groups, exact description of what is read |
| C152 | meshInterface_construct.hpp:371-515; postprocessManager_exodus.hpp:14-652; assemblyManager_util.hpp:366-384; analysisManager_solve.hpp:252-267; parameterManager_setup.hpp:132, 247-261 | names of the output against names of the declarations, by cases over all sources of fields |
| C153 | data.cpp:158-322; assemblyManager_util.hpp:366-384, 588-666; assemblyManager_groups.hpp:619-656 | Files as sequences of characters, reading of one number a parameter; pieces of `fgets` compared with lines by induction; grid composed with C13. |
| C154 | postprocessManager_sensors.hpp:51-121, 284-476, 645-843; postprocessManager_objectives.hpp:292-436 | Packing loop by an invariant; composed with C153 (files), C84 (owners) and C74 (misfit); sums over processes exchanged. |
| C155 | postprocessManager_sensors.hpp:850-960, 1163-1205; postprocessManager_objectives.hpp:326-373; workset.cpp:2284-2403 | Lists of views filled by an invariant over the bases, failure by counting; composed with the gather of C38. |
| C156 | postprocessManager_objective_gradient.hpp:1051-1502; assemblyManager_scatter.hpp:74-111; assemblyManager_gather.hpp:183-232; workset.cpp:345-436, 2080-2103 | Directional derivative by the chain rule at every point, sums over points, elements, groups, processes and times; scatter as a sum against the velocity; the factor of each time from the recorded times. |
| C157 | assemblyManager_jacres.hpp:38-104, 336-628, 638-875; assemblyManager_scatter.hpp:283-337; assemblyManager_workset.hpp:688, 973; workset.cpp:520-902; solverManager_solvers.hpp:362-384, 459-465; groupMetaData.cpp:59-62 | Composition of the exact seeds (C52) with the sums over any schedule (C35) and the chain rule for each term; sums over elements and columns exchanged. |
| C158 | assemblyManager_constraints.hpp:277-387; assemblyManager_mass.hpp:804-909; physicsInterface_boundary_conditions.hpp:46-124; physicsInterface_functions.hpp:229-320; discretizationInterface_dof.hpp:432-455; solverManager_util.hpp:14-141; solverManager_setup.hpp:689-753 | The residual of the assembled system (C68) is the gap between trace and data seen by each basis function; expansion of the square around a solution; finite sums exchanged by induction. |
| C159 | multiscaleManager.cpp:230-362, 370-433, 655-697; subgridDtN.cpp:88-103, 1805-1946, 2063-2070; subgridDtN_solver.cpp:1756-1898; discretizationInterface_basis.hpp:1289-1300 | The assembled matrix is the bilinear form of the point rule (exchange of finite sums); orthogonality and expansion of the square; induction over the groups with different numbers for the update. |
| C160 | subgridDtN_solver.cpp:162-196, 277-336, 337-503, 722, 935-1030, 1303-1308; subgridDtN.cpp:893-913, 2026-2051; subgridDtN2.cpp:370-390, 1732-1789; solverManager_solvers.hpp:78-182 | Induction over the evaluations of a stage, the stages of a try and the tries, with the invariant that the fine groups hold the last accepted state. |
| C161 | subgridDtN.cpp:1215-1240, 2063-2070; subgridDtN2.cpp:969-992; postprocessManager_error_estimation.hpp:209-497, 510-531; postprocessManager_util.hpp:803-877; multiscaleManager.cpp:247-264, 297-324 | Folds as sums; induction over the processes; exchange of the sums over models and groups. |
| C162 | vlasov_fokker_planck_0d2v.cpp:82-347; vlasov_fokker_planck_1d2v.cpp:131-321; vlasov_fokker_planck.cpp:124-317; phase_elliptic.cpp:47-153 | Loop nests in sequence; five nested folds as sums; C07 for the location of the source. |
| C163 | maxwells_fp.cpp:187-435, 442-778, 819-979, 1018-1023 | Rows copied mechanically, compared with complex weak forms; folds as sums; derivatives of trigonometric fields in the ring of fields. |
| C164 | maxwell_control.cpp:82-411 | Refinement to the model of maxwell (C108); loops as sums. |
| C165 | assemblyManager_workset.hpp:14-600, 1162-1290; assemblyManager_construct.hpp:118-171; solverManager_setup.hpp:536-669; assemblyManager_jacres.hpp:37-105, 761-773; workset.cpp:2667-2681 | State machine of the nine tables; specification reads the history of calls; refinement by induction over histories; violations with arbitrary remaining blocks. |
| C166 | assemblyManager_mass.hpp:283-546, 983-1058; solverManager_setup.hpp:41-43, 125-175; MrHyDE_OptVector.hpp:59-126, 1013-1095 | Diagonal as a sum over rows of all elements; comparison with the inner product of C79; positivity by the diagonal entries. |
| C167 | assemblyManager_database.hpp:13-72, 395-642, 956-1033; assemblyManager_groups.hpp:396-401, 477-515; group.cpp:130-240, 709-731; assemblyManager_workset.hpp:975-987 | Induction over groups and elements with shared representatives; the loops over a simple mesh with an invariant on consecutive groups; refinement to the grouping of C33 and the meshes of C121. |
| C168 | postprocessManager_objective_gradient.hpp:1618-1650, 1661-1718; assemblyManager_jacres.hpp:170-187, 296-330, 421-447, 545-628, 1119-1145, 1499-1531, 1571-1596; assemblyManager_scatter.hpp:34-47; assemblyManager_constraints.hpp:96-131; workset.cpp:866-902, 933-972; linearAlgebraInterface_matrix.hpp:145-162 | Entries of the three assembled objects from the schedule-independent sums of C35/C36; differentiating the zero residual along the path, the adjoint identity cancels the state part. |
| C169 | subgridDtN_solver.cpp:136-274, 338-501, 524-542, 680-895, 903-1037, 1131-1202, 1554; subgridDtN.cpp:1085-1100; subgridDtN2.cpp:865-876; assemblyManager_workset.hpp:1203-1211 | Induction over iterations and sub-steps; refinement of the forward path to the solver of C107; pointers and storage as explicit values. |
| C170 | assemblyManager_jacres.hpp:409-438, 1365-1402, 1450-1492, 1499-1531 | Induction over the rows (distinct rows do not disturb each other), then the row sums. |
| C171 | parameterManager_sacadoize.hpp:13-148, parameterManager_update.hpp:108-136, solverManager_models.hpp:14-118, solverManager_solvers.hpp:13-278, solverManager_util.hpp:12-80, 155-300, postprocessManager_objective_gradient.hpp:191-939, 1510-1703 | Invariant over the calls (view unseeded between calls, filled at the index inside a solve); closure under the elementary steps for the histories of stale values. |
| C172 | postprocessManager_objective_gradient.hpp:182-188, 525-768, 1621-1650; workset.cpp:2284-2403, 2478-2598 | Ring of values with slots (trivial square zero extension); induction over variables, positions and sensors. |
| C173 | postprocessManager_util.hpp:99-143, 386-615 | Own number of a sensor is its place among those found (induction); sums in which one process contributes. |
| C174 | postprocessManager_util.hpp:144-385 | Induction over directions and groups carrying the counter of sensors. |
| C175 | postprocessManager_util.hpp:652-705; postprocessManager_flux_response.hpp:51-77; postprocessTools.hpp:205-220 | Induction over the history; sums over processes. |
| C176 | assemblyManager_util.hpp:721-807; postprocessManager_util.hpp:1139-1309 | Loops as lists (induction); which turns are defined. |
| C177 | solverManager_setup.hpp:417-528; solverManager_construct.hpp:211-224; solverManager_solvers.hpp:64-156; groupMetaData.cpp:136-207; assemblyManager_gather.hpp:32-49, 280-289; workset.cpp:520-595; group.cpp:318-561; boundaryGroup.cpp:237-426; subgridDtN_solver.cpp:277-503 | Invariant over attempts and runs (sizes against tables); gather as writes into lists; shift in place by induction. |
| C178 | analysisManager_solve.hpp:776-1000; MrHyDE_Sample_Set_Reader.hpp; analysisManager_util.hpp:247-271 | Any list of calls; invariants on the current vector; streams with fail bit; permutation of samples over processes. |
| C179 | subgridDtN2.cpp:107-131, 1074-1506; subgridDtN.cpp:926-957, 1321-1746; subgridMeshFactory.cpp:106-147 | Induction over the coarse groups with the nodes before as accumulator; rows written by position against concatenated rows; last write at a node against a function of the node. |
| C180 | subgridDtN2.cpp:205-398, 403-759, 926-955; subgridMacroData2.hpp:24-48; subgridTools2.cpp:253-377, 494-514, 600-625, 1262-1277 | Position in a list of blocks of equal length against pairs of coarse element and flagged element; the pairs of a smaller group are a prefix of those of a larger; side maps by induction over the refinements. |
| C181 | multiscaleManager.cpp:44-168, 192-204 | Induction over the entries with the number of models still allowed; one model per step; the vote of C40 for the default usage. |
| C182 | postprocessManager_error_estimation.hpp:14-166, 264-474; workset.cpp:342-436, 1538-1622 | Each step gives nothing, a failure or an increment; lookups by name are unique because every function registered comes from the entry its name determines. |
| C183 | physicsInterface_construct.hpp:316-377, parameterManager_setup.hpp:239-257,271-280,405-449, parameterManager_util.hpp:13-38, parameterManager_access.hpp:83-107 | induction over the lists of families (distinct, complete), position lemma for lists without repetition, induction over parameters and over the processes for the export |
| C184 | meshInterface_construct.hpp:27-31,71-74,102-181,188,217-219,248-273, meshInterface_util.hpp:332-335,425-451, meshInterface_stk.hpp:31-36, postprocessManager_exodus.hpp:110-133, discretizationInterface_construct.hpp:167-172, subgridDtN.cpp:25-30,160-169, subgridMeshFactory.cpp:46-66 | characterisation of the cell types by an inductive relation, case analysis of the settings, induction over the columns of a row |
| C185 | discretizationInterface_construct.hpp:39-40,72-111,148, discretizationInterface_basis.hpp:227-344,1454-1490 | classification of the type strings, induction over families and physics sets (a second pass adds nothing), maximum over a list |
| C186 | physicsInterface_functions.hpp:154-222, physicsInterface_initial.hpp:29-195, solverManager_util.hpp:175-305 | composition with C07 (first registration wins) and C99 (rounding of numbers); uniqueness of names gives the tree that is found |
| C187 | driver.cpp:163-215 and what the called parts read: discretizationInterface_util.hpp:51-64, 229-266, meshInterface_util.hpp:365-378, linearAlgebraInterface_construct.hpp:140-381, assemblyManager_util.hpp:367-384, solverManager_models.hpp:40-55 | reads and removals as a list, induction on it; membership of reads in the loops |
| C188 | physicsInterface_functions.hpp:438-472, assemblyManager_mass.hpp:752-797, postprocessManager_util.hpp:911-923 | membership of the writes of nested loops that may fail; value of the last write |
| C189 | meshInterface_exodus.hpp:27-183, meshInterface_construct.hpp:567-570 | induction over the variables; splitting at separators; digits of numbers |
| C190 | postprocessManager_exodus.hpp:730-865, assemblyManager_gather.hpp:183-234, parameterManager_access.hpp:83-93, meshInterface_construct.hpp:530-558, solverManager_models.hpp:53-59 | invariants of nested loops that may fail; values of the last write |
| C191 | multiscaleManager.cpp:39-42, 161, 378-387, 437-441, 698-811, 865-912, 995-1182 | refinement of the tables by records of the calls; induction on updates |
| C192 | analysisManager_util.hpp:191-243; parameterManager_update.hpp:182-211; parameterManager_access.hpp:31-47, 148-200; MrHyDE_OptVector.hpp:1316-1329, 1350-1365 | invariant of the loop over levels; round trip |
| C193 | postprocessManager_objectives.hpp:13-72, 132-566, 580-632; postprocessManager_construct.hpp:209, 238-244, 291-293; postprocessTools.hpp:77-151 | parts of joined names; induction on blocks |
| C194 | parameterManager_util.hpp:101-141; parameterManager_update.hpp:68-84, 108-117, 182-212; analysisManager_solve.hpp:251, 425-461, 647-682, 983 | frame of one level; induction on samples |
| C195 | postprocessManager_construct.hpp:107, 299-332; postprocessManager_integrated_quantities.hpp:15-72, 134-283; workset.cpp:1483-1498; thermal.cpp:413-446; functionManager_create.hpp:14-34 | induction on the table of functions and on the list of modules |

## Code not modelled

* `src/physics`: the residual formulas of the physics modules not named above
  (a residual is an arbitrary function in the assembly model).
* `rosenbluth_potential.{hpp,cpp}` and `phasesolidification.hpp` are named in no
  other file of the repository: no input selects them, and they are not
  modelled.  (The volume residuals of the first carry no quadrature weights.)
* Mesh input, basis functions, quadrature, orientations, DOF numbering: these
  are arbitrary data given to the model, except for the simple meshes (C121,
  C122).  The interval, cylinder and step-channel managers leave pure virtual
  functions undefined, cannot be instantiated and are not modelled.
* Facts about Trilinos used in statements (numbering of the corners, edges and
  sides of the reference cells, functions of the first-order basis on
  quadrilaterals numbered like the corners) are part of the specification.
* Linear solvers and preconditioners other than the matrix-free conjugate
  gradient loop; where a theorem needs a solve, the solve is exact.  Which
  matrix, preconditioner and options they are handed is C123.  MueLu's
  `ReuseTpetraPreconditioner` is taken to recompute for "reuse: type" = "none".
* Runs with a phase space stop earlier than C124 describes: the DOF manager of
  the phase space is declared twice (`discretizationInterface_dof.hpp:55,61`)
  and the outer one stays empty.
* The derivative types are assumed to propagate derivatives correctly through
  arithmetic (dual numbers); only seeding and reading of slots is modelled.
* Exodus/HDF5 output formats, timers, verbosity, profiling output.
* Communication is modelled by its result (sum, maximum, gather); matching of
  collective calls is only modelled where a property says so.

## Disagreements

Where the code violates a property, the negation is proved for a concrete
witness or for all inputs of a class, and what is left of the property is
proved in theorems with the suffix `_partial`.  The table lists all of these
theorems with their statement in words (taken from the comment of the
theorem).

<!-- disagreements:begin -->
| property | theorem | what the code does |
|---|---|---|
| C03 | `C03_signed_exponent_is_cut` | C03 fails: whatever digits stand before and whatever text stands behind it, splitting an expression that begins with a number with signed exponent always cuts the number at the sign of its exponent (unless splitting throws). |
| C03 | `C03_violated` | C03 fails, observable effect: the function `1e+2` has the value 100, but `1e+2*x` has at `x = 1` the value 3 instead of 100. |
| C08 | `C08_emax_violated` | C08 fails for `emax`: over the points with values 1, 3, 2 the result is 2. |
| C08 | `C08_emin_violated` | C08 fails for `emin`: over the points with values 3, 1, 2 the result is 2. |
| C08 | `C08_emean_violated` | C08 fails for `emean`: over the points with values 4, 8 the result is 8. |
| C09 | `C09_negative_time_violated` | C09 fails for negative times: a state stored at time -1 is not read back once another state has been stored at time -2. |
| C09 | `C09_index_gap_violated` | C09 fails if an index is used before the indices below it: the state ends up under another index, and reading it back is an access out of range. |
| C10 | `C10_ends_violated` | C10 fails at the ends: the previous state of the first one is reported as found, and is the first one itself; likewise the next state of the last one. |
| C10 | `C10_time_zero_violated` | C10 fails at time zero: the next state after the one stored at time 0 is not found. |
| C11 | `C11_size_violated` | C11 fails for `size()`: for a keyed view it is the number of elements, for the uncompressed view of the same data the number of entries. |
| C12 | `C12_device_violated` | C12 fails where the host mirror is separate memory (GPUs): the copy of the row counts goes the wrong way, every row shows no entries, and every product is zero, whatever the dense array. |
| C13 | `C13_far_violated` | C13 fails for locations farther than `sqrt(RAND_MAX)` from every node of the axis, whatever that constant: node 0 is returned although node 1 is closer, and the distance is not that of any node. |
| C13 | `C13_scattered_violated` | C13 fails for scattered points when a query has no neighbour: it silently gets the neighbour of the next query (and the last one reads past the end). |
| C15 | `C15_indivisible_violated` | C15 fails whenever the requested size does not divide the number of ranks and is at most half of it: the code announces that it falls back to one group, but then asks for ranks that do not exist. |
| C15 | `C15_multiscale_violated` | C15 fails for the multiscale split: the sampling communicator is never created, for any request. |
| C16 | `C16_variance_violated` | C16 fails: the variance reported to the user is not the unbiased sample variance. |
| C16 | `C16_less_than_violated` | C16 fails for the label "probability the response is less than": a constant response equal to the level is reported to be less than it with probability one. |
| C17 | `C17_infinite_violated` | C17 fails where the derivative vanishes at an iterate: the search for the root of `1/2 - (x-2)^2` in (1,2) starts at the extremum 2, divides by zero, and an infinite "root" is returned. |
| C17 | `C17_not_a_root_violated` | C17, quality: a returned value need not be a root. The search for the triple root 5/2 stops after ten Newton steps and returns a value at which the function is far above the tolerance. |
| C18 | `C18_time_violated` | C18 is violated: the value, the gradient, the divergence and the curl of every variable whose name contains `_t` are classified as time derivatives. |
| C18 | `C18_curl_violated` | C18 is violated: the plain value of every variable whose name contains `curl` is never classified as a value. |
| C18 | `C18_grad_violated` | C18 is violated: likewise for `div` and `grad`. |
| C18 | `C18_stale_violated` | C18/C41 are violated: in a steady run the value of a variable named `u_tot` is never computed; the request answers zero whatever the solution is. |
| C18 | `C18_value_violated` | C18 is violated: the value of a variable named `gradient` is computed with the gradients of the basis functions. |
| C19 | `C19_other_orders_violated` | Orders outside 1..6 have no weights: the reconstructed derivative is zero whatever the states are (the code does not reject such an order). |
| C20 | `C20_dirk33_violated` | C20, not satisfied exactly by "DIRK-3,3". The constant of the code is the root rounded to ten digits, so in exact arithmetic the second order condition already fails. |
| C20 | `C20_leapfrog_violated` | C20, violated by "leap-frog". Its weights add up to two and its second row does not sum to its abscissa: as a Runge-Kutta method (which is how the code uses it) it is not consistent. |
| C21 | `C21_explicit_violated` | C21, violated for the explicit solver with an implicit tableau. The option "fully explicit" is not checked against the tableau: with implicit Euler the stage is evaluated at the old state, so for `u' = -u` the result `1 - dt` is not the implicit Euler step. |
| C22 | `C22_failures_violated` | C22, violated when steps keep failing: after the allowed number of cuts the loop ends before the final time, and nothing in the state distinguishes this from a normal end other than the time. |
| C23 | `C23_violated` | C23, violated. After one accepted and one failed step, in the repeated step the second slot holds the last solution again instead of the one before it. |
| C23 | `C23_startup_violated` | C23, violated in the first steps. With the default settings a multistep method is used from the first step, when the slots beyond the steps taken hold zero vectors. |
| C24 | `C24_status_violated` | C24, violated. With any positive iteration limit the status is zero on every process, for all residual histories, tolerances and increments: failure to converge is never reported. |
| C24 | `C24_violated` | C24, violated: a concrete run with default options whose residual stays at `1`: ten iterations, no convergence, status zero. |
| C24 | `C24_ranks_violated` | C24, violated: the only run that reports failure (an iteration limit of zero) reports it on process 0 only. |
| C26 | `C26_indefinite_violated` | C26, breakdown. For an indefinite operator the loop can divide by zero: the returned vector is not a number although the system is solvable. |
| C27 | `C27_violated` | C27, violated (no error is reported for an unknown usage). With a misspelt usage the types are shifted against the parameters: the active parameter `b` keeps its value, the vector meant for it goes to `a`, and the loop then reads the type of `b`, which does not exist. |
| C27 | `C27_flat_violated` | C27, violated (dynamic parameters through the string interface). `updateParams(v, "active")` followed by `getParams("active")` does not give `v` back: the second call concatenates all time indices. |
| C29 | `C29_violated` | C29, violated: at the last time index the time derivative is zero for every parameter history. |
| C29 | `C29_violated_concrete` | The claim fails for a concrete history: a parameter that grows by one in each step has derivative zero in the last step. |
| C30 | `C30_mass_violated` | C30, violated (a). With a mass matrix and no diagonal the fields contribute nothing: for two primal vectors without scalars the inner product is zero, whatever their entries. |
| C30 | `C30_clone_violated` | C30, violated (b). A clone loses the scale: with scale two the inner product of a vector and its copy depends on the order. |
| C31 | `C31_initial_violated` | C31, violated (a). A gradient at the initial parameters as the first request is computed without any forward solution, and after generating data from the solution with the generating source. |
| C31 | `C31_mass_violated` | C31, violated (b). With a mass matrix without a diagonal and no scalar parameters no point counts as new: the gradient requested anywhere is computed at the point of the last value. |
| C32 | `C32_violated` | C32, violated (a). Values for both samples at 1, then gradients for both samples at 2: the second gradient is computed from the solution at 1. |
| C32 | `C32_first_violated` | C32, violated (b). A gradient at the initial parameters as the first request reads a cache that does not exist, for every list of samples. |
| C32 | `C32_close_violated` | C32, violated (c). Two samples closer than the tolerance share one cache entry: the gradient for the first is computed with the solution of the second. |
| C33 | `C33_zero_size_never_ends` | C33 is false for workset size zero: no number of passes ends the loop. |
| C33 | `C33_other_modes_fail` | C33 is false for the other mode names, among them the documented "random" and "neighbor-avoiding": the first entry of an empty list is read. |
| C33 | `C33_foreign_number_fails` | C33 is false in the subgrid-preserving mode as soon as a boundary group of the block holds an element number outside `[0, n)`: boundary groups carry processor-wide numbers, the table has one row for each element of the block. |
| C35 | `C35_narrow_block_undefined` | C35 is false in the first path for a block with fewer local unknowns than the table has columns (the table is as wide as the widest block): the columns left over are handed to the matrix without ever having been written. |
| C36 | `C36_weak_option_empty_row` | C36 is false with "use strong DBCs: false" when strong conditions are listed all the same: the rows stay empty and the matrix is singular. |
| C36 | `C36_point_residual` | C36 is false for point constraints: the matrix row is that of the identity, but the residual keeps the sum over the elements, so the solution is moved by it. |
| C36 | `C36_second_set_residual` | C36 is false in the second path (sensitivities, adjoints) for a physics set other than the first: the residual looks at the table of the first set, so a prescribed unknown of this set collects the sum over the elements. |
| C37 | `C37_second_path_not_lumped` | C37 is false along the second path: the option changes nothing there, so adjoints and sensitivities of a lumped problem use the consistent matrix. |
| C38 | `C38_other_set_derivative` | C38 is false for the time derivatives of the sets that are not being solved: they stay as the last group left them when that set was solved. After any number of groups prepared for set `s`, the last one being `last`, preparing a group `g` for another set leaves in the time derivative of `s` the values of `last`, not of `g`. |
| C40 | `C40_no_votes_last_model` | C40 is false where no model gets a vote: the last model of the list is chosen, whatever its block. |
| C40 | `C40_short_group_shifts` | C40 is false after a group that does not fill the table: the predictions are read one group late. Here the first group has one element in a table of two rows, and the second group gets a model that was rejected for its element. |
| C40 | `C40_single_model_undefined` | A single model with at least one group: the empty table of predictions is read. |
| C40 | `C40_foreign_group_active` | C40 is false with a group of a block without subgrid models, whose two numbers are never set: whatever they are, its user number is active in the model of its number too (or lies outside, and the vector is written out of bounds). |
| C41 | `C41_side_curl_violated` | C41 is violated: on a side, the curl of a vector field is computed with the values of the basis functions, not with their curls (which are not tabulated on sides). |
| C41 | `C41_param_index_violated` | C41 is violated: asking for the value of the second discretized parameter when there is one variable reads past the end of the index of the variables. |
| C41 | `C41_unknown_violated` | C41 is violated: a label that is not registered reads past the end of the list of fields. |
| C41 | `C41_points_violated` | C41, violated at points. A request on points never evaluates: for all coefficients, bases and flags the lists of fields are unchanged and the array returned is the one stored, whether or not the coefficients have changed since it was written. |
| C41 | `C41_points_constant_violated` | C41, violated at points, over time. In any sequence of changes of the coefficients all the arrays returned at points are the same. |
| C42 | `C42_parameters_violated` | C42 is violated for discretized parameters: if the list is not empty and does not start with the name, the lookup never stops. |
| C42 | `C42_basis_violated` | In particular the basis of the second discretized parameter can never be found. |
| C43 | `C43_violated` | C43 fails: with `mu = 7`, `f = mu` and `g = f+1`, evaluating `g` gives 1; after `f` has been evaluated, the same evaluation of `g` gives 8; and when the parameter then changes to 9, `g` still gives 8. |
| C44 | `C44_violated` | C44 fails, observable effect: at `x = 2` the function `(x<=2)` has the value 1, but `(x<=2)+5` has the value 5. |
| C44 | `C44_equality_dropped` | C44 fails, in general: as soon as the text has a `+` or `-` outside parentheses, splitting gives the same result as for the text with every `=` removed, at every depth: `<=` becomes `<`. |
| C45 | `C45_violated` | C45 fails: `exp(x)` is accepted, `exp( x )` makes the set-up throw, although `1 + exp(x)` is accepted. |
| C46 | `C46_violated` | C46 fails: `tanh(x)` (not a built-in function) is accepted by the set-up, and its value is whatever the storage held before. |
| C48 | `C48_fill_violated` | C48 fails for the sampler that fills views: it passes the variance as standard deviation, so for every true square root and every variance other than 0 and 1 the two samplers draw from different distributions. |
| C49 | `C49_violated` | C49, violated. For a named physics set the multistep order given in the list "Solver" is ignored: the set runs with order one. |
| C50 | `C50_violated` | C50, violated. For each of these built-in tableaux boundary data that are linear in time are wrong after the first step. |
| C51 | `C51_violated` | C51, violated. With a start-up phase, the second solve (the next evaluation of an objective function, say) starts with the main multistep method at once. |
| C52 | `C52_other_set_violated` | C52, violated for the variables of another physics set: their time derivative is whatever an earlier evaluation left there, so for all data there is a prior content for which it is wrong. |
| C53 | `C53_dt_violated` | C53, violated (a). With the number of steps given and no step size, the parameter manager uses the step size one while the solver uses `(tf - t0)/n`: time derivatives of parameters are wrong by the factor `(tf - t0)/n`. |
| C53 | `C53_both_violated` | C53, violated (b). With both entries given the solver follows the step size and the parameter manager the number of steps: with two steps and step size 1/4 the third step to time one has no parameter state. |
| C53 | `C53_cut_violated` | C53, violated (c). After a step cut the solver takes more steps than there are parameter states: with step size 1/2, a failure in the first attempt and one parameter state for each of the two planned steps, the third step reads past the end. |
| C53 | `C53_scalar_violated` | C53, violated (d). The time derivative `p_t` of a scalar parameter is never available: the view it reads has no entries, whatever the parameter number, time index and values. |
| C54 | `C54_violated` | C54, violated in the fully explicit mode: no derivative type is selected although active parameters exist (`C28_few_slots`: every component is left without derivative). |
| C55 | `C55_violated` | C55, violated. With a diagonal mass the dual is applied without weights: for one field entry 1 with weight 4 the inner product is 4 and the dual applied gives 1; and the squared norm of the dual is 4 although the norm of a dual vector is the one with inverse weights. |
| C55 | `C55_back_violated` | C55, violated (the other direction). The dual of a dual vector is a vector whose inner product with `y` should be the value of the dual vector at `y`: for one field entry 1 with weight 4 the dual vector applied to `y` gives 1 and its dual, which is taken as an ordinary vector again, has inner product 4 with `y`. |
| C56 | `C56_violated` | C56, violated. When the optimiser rejects its last trial point `x1` and returns `x0`, the parameters left are the rejected ones. |
| C57 | `C57_violated` | C57, violated. Later time levels are not summed: whatever the inputs, component 1 and those after it keep what the output held before. |
| C58 | `C58_second_block_wrong` | C58 is false with several blocks: for a block whose elements are numbered from `s > 0` every stored number that stays in range gives the geometry of another element. |
| C58 | `C58_second_block_out_of_range` | ... and a number beyond the size of the block is read outside the array. |
| C59 | `C59_first_element` | C59 is false for nodes in several elements: the numbers are always those of the first element found. |
| C59 | `C59_shared_node_wrong` | C59 is false for the middle node of a line with two elements: the first node is constrained as well. |
| C59 | `C59_second_block_wrong` | C59 is false for other blocks: with elements 0 and 1 in different blocks, a node of element 1 constrains a number of element 0. |
| C59 | `C59_name_inside` | C59 is false for names inside other names: every node set whose name is a part of the text is taken. |
| C60 | `C60_label_last` | The label is that of the last condition asked for, in the order Dirichlet, Neumann, far-field, slip, flux. |
| C60 | `C60_code_first` | The number in the side information is that of the first condition asked for. |
| C60 | `C60_weak_dropped` | Weakly imposed values together with a flux on all boundaries are dropped: no label asks for them. |
| C61 | `C61_lumped_not_transposed` | C61 is false with lumping: the forward matrix is diagonal, the adjoint one is the transpose of the consistent matrix. Witness: the example mesh below, row 0. |
| C62 | `C62_second_block_shifted` | C62 is false with several blocks: a free row that the first block does not touch is declared zero, its diagonal is set to one, and the contributions of the second block are added to that one. |
| C63 | `C63_gradient_zero` | C63 is false for gradients: every side of the mesh reads zero, whatever the basis functions. |
| C64 | `C64_stale_residual` | C64 is false with volume and face terms off: every group scatters whatever the workset held, and after an assembly with boundary groups that is the residual of the last boundary group. The second assembly therefore adds to the wanted residual that of the last boundary group once for every element group. |
| C64 | `C64_faces_accumulate` | With volume terms off and face terms on, the face terms of a group are scattered again by every later group. |
| C65 | `C65_boundary_older_step` | C65 is false for boundary terms and older steps: whatever step is asked for, the boundary terms see the derivative with respect to the most recent previous solution. |
| C66 | `C66_later_stage` | C66 is false in later stages: the same request also seeds the solution of stage 0, so the slots mix the derivative with respect to the parameter with the one with respect to that stage. |
| C67 | `C67_multistage` | C67 is false for several stages: the adjoint run does nothing and returns a zero gradient. |
| C67 | `C67_multistep_undefined` | With more previous steps than physics sets, the stored products are read out of bounds: no result. |
| C67 | `C67_multistep_ignored` | With several previous steps and at least as many sets, the dependence on every state but the last is ignored: the result is that for any other dependence on older states. |
| C67 | `C67_step_size` | C67 is false if the step was cut during the forward run: steps of size 1 and 1/2, `deltat` is 1/2 afterwards. With u' = p and the objective `∫ u` the gradient is 1·1 + (1/2)(3/2) = 7/4; the adjoint run returns another number. |
| C67 | `C67_explicit_violated` | C67 is false for objectives whose functions depend on the scalar parameters explicitly: that dependence is ignored, the result is the one for any other dependence. |
| C68 | `C68_lumped_zero_diagonal` | C68 is false with lumping: a prescribed unknown that is not the last of any of its sides has a zero diagonal entry, so the lumped matrix is neither diagonal nor equal to the lumped mass on the diagonal. |
| C69 | `C69_stale_previous` | C69 is false in every group but the last: the time derivative combines the state of the elements of `g` with the previous states of the elements of another group. |
| C70 | `C70_factor_zero` | C70 is false: the load balancing factor printed is zero (or 0/0) for all costs, where the largest divided by the smallest cost was announced. |
| C70 | `C70_cost_last_group` | C70 is false for the cost of a process as well: it is that of the last group only. |
| C71 | `C71_other_group` | C71 is false with several groups: groups of equal size get the same model, however different their states are. |
| C72 | `C72_response_squares_regularisation` | C72 is false for a response with regularisation: the regularisation is squared together with the response. |
| C72 | `C72_sensor_regularisation_step` | C72 is false for sensors with regularisation: the regularisation is added once per step, whatever the step size. |
| C73 | `C73_processes` | C73 with several processes: a process adds what it would add were it alone; the slots of the others are not summed. |
| C73 | `C73_processes_wrong` | C73 is false on two processes even with slots: functions with values 3 and 5 and derivatives 1 and 10; each process gets its own part of the derivative 11. |
| C73 | `C73_response_regularisation` | C73 is false for a response with the squared norm of the parameter: response 3, target 0, parameter 2: the derivative of (3 + 4)² is 56, the code adds 4; were the response differentiated (slope 1), 2 * 7 * 1 + 4 instead of 70. |
| C73 | `C73_sensor_regularisation` | C73 is false for sensors with the squared norm of the parameter and step size 2. |
| C73 | `C73_integrated_ignored` | C73 is false for an integrated regularisation that depends on a scalar parameter: its derivative 7 is left out. |
| C73 | `C73_unseeded_violated` | C73 is false for functions that depend on scalar parameters explicitly: whatever they are, on every process, for every type of objective without regularisation (weights and data being constants), nothing at all is added to the gradient. |
| C74 | `C74_responses_add_first_data` | C74 is false with `compute responses`: at a time without measurement the first measurement is compared. |
| C74 | `C74_silent` | A measurement away from the times of all steps is silently ignored: its value does not matter. |
| C74 | `C74_derivative_shifted` | C74 is false for the explicit derivative: it is the measurement at the beginning of the step that counts. Times 0, 1, 2, one measurement 5 at time 1, responses 3 and 4 with derivatives 1 and 10: wanted is 2 (3 - 5) 1 = -4, computed 2 (4 - 5) 10 = -20. |
| C75 | `C75_response_stale` | C75 is false for an integrated response: the states of the groups do not enter at all; what the workset held before is used for each group. |
| C75 | `C75_response_wrong` | C75 is false even for a response without parameters: after the derivative with respect to the state (seeded), the slots of the state are taken for those of the parameter. Response `u`, one point of weight 1, value of the basis function 1: 1 instead of 0. |
| C75 | `C75_unseeded_violated` | C75 is false for every function of parameter and state that returns no slot for values without slots (as all arithmetic does): nothing is added, whatever its derivative. |
| C76 | `C76_group_sum` | C76 is false for larger groups: to the rows of every element the sum over all elements of the group is added. |
| C80 | `C80_negative` | C80 is false with negative entries: the lumped matrix does not have the row sums: 1/6 instead of 1/10; the total mass is not kept. |
| C80 | `C80_paths_differ` | C80 is false across the ways of storing: the lumped matrix depends on where the vectors live. |
| C80 | `C80_jacobi_violated` | C80 is false for the diagonal for preconditioning when two degrees of freedom of an element are the same unknown, as on a periodic mesh one element wide: the off-diagonal entries belong to the diagonal of the assembled matrix but are left out. |
| C81 | `C81_sparse_matrix_zero` | C81 is false with the sparse database: the assembled matrix stays zero. |
| C82 | `C82_window_violated` | C82 is false with a recording window: the adjoint run adds, with weight one, steps outside the window. Two steps of size one, recorded from time two on. |
| C82 | `C82_frequency_violated` | C82 is false when only every second step is recorded: the explicit dependence is counted at all steps. |
| C82 | `C82_negative_times_violated` | C82 is false at negative times: the comparison is relative to the time, so every recorded time matches and the size of the last step is used for all. |
| C82 | `C82_single_recorded` | C82 is false when exactly one step is recorded: the value is not multiplied by any step size (and the initial state counts). |
| C83 | `C83_last_missing` | C83 is false for different frequencies: three steps, every second one written, and the last state is not in the file. |
| C83 | `C83_last_twice` | C83 is false for different frequencies: every step written, and the last state is written twice. |
| C83 | `C83_zero_frequency` | A frequency of zero is undefined behaviour. |
| C84 | `C84_reads_outside` | C84 is false in one and two dimensions: the first test of the first element reads past the extent of the box. |
| C86 | `C86_data_violated` | C86 is false: the points "p.dat" and the data "data.dat" of process 0; the other processes look for yet other names. |
| C86 | `C86_dropped` | C86 is false with several processes: of the sensors with the same number in the files of the different processes only that of the lowest rank is kept, though they are different points, each found by its own process. |
| C86 | `C86_null_violated` | C86 is false: if the name of the data is the shorter one it is filled up with null characters, which end the name for the file system: what is opened is the name without rank and extension. |
| C87 | `C87_other_violated` | C87 is false as soon as there is an objective of another type beside responses: the sizes are read past their end. |
| C87 | `C87_empty_violated` | C87 is false when the solution at the sensors is kept but no time has been recorded: the first recorded solution is read. |
| C88 | `C88_accumulate` | C88 is false for the solutions at the sensors, the errors and the norms: after several solves they are those of all solves, one after the other. |
| C88 | `C88_violated` | C88: the responses of a sampling study which keeps the solutions at the sensors are wrong from the second sample on: they agree with those of the sample exactly when nothing had been recorded before. |
| C89 | `C89_violated` | C89 is false: at every frequency the reported transform is the number of frequencies times the sum of the values. |
| C89 | `C89_witness` | An oscillation with period two: the transform at the frequency of the oscillation is two, the reported one is zero. |
| C90 | `C90_violated` | C90 is false: a solution twice as large has a reported norm four times as large; the reported number is no norm. |
| C90 | `C90_single` | C90 is false even for one unknown: the reported number is `w u²`, the norm of the solution is `√w \|u\|`. |
| C91 | `C91_violated` | C91 is false: the greatest of negative values and the least of positive values are reported as zero. |
| C92 | `C92_name_violated` | C92 is false: the side "top" is also counted when "top2" is asked for. |
| C92 | `C92_stale` | C92 is false when a step is not recorded: the modules go on with the value of an earlier one, so the solution depends on the frequency of output. |
| C93 | `C93_state_violated` | C93 is false: with two groups on the side, the flux of the first is computed with the state of the other. |
| C93 | `C93_times_violated` | C93 is false in time dependent problems: the report is the sum over the recorded times. |
| C93 | `C93_all_violated` | C93 is false for the default "all": nothing is counted unless the name of a side occurs in the word "all". |
| C94 | `C94_face_violated` | C94 is false: two triangles with one common face, error one on every face; five faces, reported as three. |
| C95 | `C95_dropped_violated` | C95 is violated in the default configuration: with automatic selection of the type, between 1 and 32 unknowns per element and a `MAXDERIVS` that is none of the automatic sizes (the default is 64), the flux conditions of all variables are left out of the residual assembled together with the Jacobian, whatever they prescribe. |
| C95 | `C95_paths_violated` | C95, consequence: the two assemblies agree in that configuration only where nothing is owed to an equation. |
| C96 | `C96_prefix_violated` | C96 is violated for block names that begin other block names: the settings made for the block `b ++ c` are also those of `b`, for every name `b` and every ending `c`, when they come last. |
| C96 | `C96_eleven_violated` | C96, the case of eleven blocks with the usual names: the order set for block eleven is used on block two, whose own sublist comes first. [case of `C96_prefix_violated`] |
| C97 | `C97_sets_violated` | C97 is violated when two sets have a variable of the same name with different spaces: both sets get the basis number of the last one. |
| C97 | `C97_params_violated` | C97 is violated for discretized parameters on blocks with other variables: the basis number found on the first block denotes another space on the second one, or none at all. |
| C98 | `C98_unknown_violated` | C98 is violated by unknown names: a name that is not known adds nothing and is not reported; the other modules are created as if it had not been requested. |
| C98 | `C98_blank_violated` | C98 is violated by a separator without the blank, and by a second blank: the requested modules are not created. [case] |
| C99 | `C99_small_violated` | C99 is violated by small numbers: every number below half a millionth in size becomes zero, so that relative errors are not bounded. |
| C99 | `C99_all_violated` | C99 is violated by an entry for all boundaries beside one for a side: the entry of the side has no effect, whatever it is and wherever it stands. |
| C99 | `C99_neumann_violated` | C99 is violated by numbers in conditions other than Dirichlet and initial ones: the run ends with an exception for every number, where the Dirichlet condition accepts it. |
| C99 | `C99_whole_violated` | C99, entries that are neither text nor a number with a point (such as the whole number 1) are left out without a report, and an initial value of this kind is zero. |
| C100 | `C100_adjoint_violated` | C100: that the adjoint computation uses the forward matrix is false when the user selects the nonsymmetric form: the adjoint assembly (which transposes afterwards) assembles the symmetric form instead. One element with linear basis functions and form parameter -1. |
| C100 | `C100_robin_violated` | C100: that the function "robin alpha" acts on the boundary is false: the residual is the same for every value of it, on every kind of side. |
| C101 | `C101_biot_violated` | C101: that the pore pressure reduces the stress by `alpha p` is false below three dimensions: the block meant for three dimensions is executed in all of them. It writes outside the stress array (undefined); if those writes are ignored, the pressure cancels in one dimension and counts twice in two. |
| C101 | `C101_plane_thermal_violated` | C101: that a plate in plane stress expands freely under heating is false: with unit coefficients and displacement gradient equal to the thermal expansion, a stress remains (the factor in the code is 5 mu, not 6 mu). |
| C101 | `C101_mixed_violated` | C101: that the conditions of the components are independent is false on a side with a weakly imposed displacement in x and a traction in y (a roller): the traction enters the equation of x as if it were a displacement; and with a strong Dirichlet condition in y an unassigned view is read. |
| C101 | `C101_plane_side_violated` | C101: that the matrix of a weakly imposed displacement is symmetric is false in plane stress: the stress uses `2 mu` in place of `lambda`, the boundary term uses `lambda`. |
| C102 | `C102_pspg_violated` | C102: that the pressure stabilisation vanishes for exact solutions is false: the source is added to the pressure gradient instead of subtracted. For a fluid at rest whose pressure gradient balances the source (zero strong residual), the stabilised pressure equation receives twice the source. |
| C102 | `C102_tau_violated` | C102: that the stabilisation parameter is `h*h/(2 nu)` in every dimension is false in two dimensions, where it is `h/(2 nu)`. |
| C102 | `C102_source_pr_violated` | C102: that the source of the pressure equation, which the user can give as a function, acts is false: the residual does not depend on it. |
| C102 | `C102_traction_violated` | C102: that a traction given on a side acts is false: the boundary residual is the same for any two tractions. |
| C102 | `C102_lsic_violated` | C102: that "useLSIC" penalises the divergence in the momentum equations is false: the momentum equations are the same with and without it. |
| C103 | `C103_3d_violated` | C103: that every momentum equation is assembled is false in three dimensions: the equation of the third component receives nothing, and its terms are added to the equation of the second component, for every state and setting. |
| C103 | `C103_buoyancy_violated` | C103: that the buoyancy acts when the temperature is computed by the thermal module is false: the variable of that module is named "T" (src/physics/thermal.cpp:26-31), the fluid module looks for a variable named "e". |
| C103 | `C103_pspg_violated` | C103: that PSPG vanishes for exact solutions is false with buoyancy and a density other than one: the buoyancy is not divided by the density, the other terms are. |
| C104 | `C104_flux_violated` | C104: that the flux reported to the coarse scale is the flux through the interface is false in two and three dimensions: the part of the pressure gradient in the y and z directions is missing, so that through a side with normal in the y direction the reported flux has the penalty part only, whatever the gradient is. |
| C104 | `C104_gravity_violated` | C104: that the gravity given by the user acts is false: neither the volume residual nor the boundary residual nor the flux depends on it. |
| C104 | `C104_flux_zero_violated` | C104: that the reported flux is the flux through the interface, witnessed: the pressures agree, the fluid flows with 8 through the side, the reported flux is 0: the claim is false. |
| C105 | `C105_history_violated` | C105: that the fine scale sees the coarse scale is false when three or more earlier values are stored (methods with three or more steps): the value seen is zero, whatever the coarse values are. |
| C105 | `C105_explicit_stage_violated` | C105: that every stage of a coarse method can be solved is false: at a stage with abscissa zero the coarse step has length zero and the weights are not defined. |
| C105 | `C105_unequal_violated` | C105: that linear changes are seen exactly is false with two earlier values when the coarse steps had different lengths (a step was cut or adapted): the code assumes equal steps. The coarse value is the time itself, at times 0, 2 and 3; at time 5/2 the value seen is not 5/2. |
| C105 | `C105_second_stage_violated` | C105: that linear changes are seen exactly is false in the second stage of a coarse method with two stages: the stored earlier value belongs to the start of the step, but is used as the value at the first stage. The coarse value is the time, the step starts at 0, the stages are at 1/2 and 1. |
| C106 | `C106_accumulate_violated` | C106: the property is false for a module that adds (the `porous` module): the flux of the first side is counted again on the second side. Two sides with fluxes 1 and 2 and weights 1 and 2 give 7 instead of 5. |
| C106 | `C106_accumulate_average_violated` | C106: for a module that adds, the flux also grows with every sub-step when the flux is averaged: two sub-steps with the same flux 1 through one side do not give the mean 1. |
| C106 | `C106_order_violated` | C106: the property is false for modules that use their own numbers (thermal, elasticity, porous) when the coarse problem numbers its variables in another order: the fluxes 1 and 10 arrive exchanged. |
| C106 | `C106_bounds_violated` | C106: with its own number a module writes outside the array when the fine model has more variables than the coarse one and the coupled variable is not among the first ones. |
| C107 | `C107_stale_violated` | C107: that the derivative satisfies the linearised fine equation at the returned solution is false for a problem that is not linear: the matrix of the last Newton step is used again, not the matrix at the solution. For `u² - 4 - λ` from `u = 3` the solver returns 13/6; there the derivative should be 3/13, the code gives 1/6. |
| C107 | `C107_zero_residual_violated` | C107: that the derivative is exact is false when the start of a sub-step has no residual: nothing is factorised, and the matrix left by another coarse element (or another step length) is used. The problem `2 u - u' - λ` has derivative 1/2; after an element with matrix 4 the code gives 1/4. |
| C107 | `C107_silent_violated` | C107: a fine solve that fails is not reported: for `u² - 4` the solver allowed one iteration from `u = 1/100` returns a solution whose residual is thousands of times the residual of the start, in the same form as a good one. |
| C107 | `C107_history_violated` | C107: with two earlier values the call repeats the value of the previous coarse time: at the start of the first call after a coarse step both earlier values are that value, the one before it is lost. The second call in the same coarse step (next coarse Newton iteration) instead finds the last value of the first call. |
| C107 | `C107_two_step_violated` | C107: with two earlier values the derivative is wrong from the third sub-step on, because the older derivative is never stored: for `3/2 u - 2 u₁ + 1/2 u₂ - λ` the third value is not the one of the chain rule. |
| C108 | `C108_permittivity_violated` | C108: that the electric equation is Ampère's law is false in three dimensions for a permittivity that varies: the equation is divided by the permittivity under the curl. A uniform magnetic field at rest solves Ampère's law exactly, but with the permittivities 1 and 2 at the two points its residual is not zero; in two dimensions it is. |
| C108 | `C108_absorbing_2d_violated` | C108: that the absorbing condition acts is false in two dimensions: the residual is not changed. |
| C109 | `C109_velocity_violated` | C109: that every velocity equation relates displacement and velocity is false in three dimensions, for every state: the equation of the second velocity component receives nothing at all (its row of the Jacobian is zero), and that of the first receives the terms of both. |
| C110 | `C110_ice_violated` | C110: that `shallowice` solves its equation is false in three dimensions: nothing is assembled, for every state. |
| C110 | `C110_defaults_violated` | C110: that a uniform concentration at rest is a steady state when the input deck gives no functions is false: the default of the reaction is the constant 1, not multiplied by the concentration. The entries of the residual sum to the measure of the element. The equation that is solved has the constants 1 for diffusion, velocity and reaction. |
| C110 | `C110_ode_violated` | C110: that `ode` assembles the weak form is false when its basis has more than one function: the value of the basis function is left out and the other functions receive nothing. |
| C111 | `C111_dimension_violated` | C111: that the settings "use entropy viscosity" and "use SUPG" act is false in one and three dimensions: the residual does not depend on them. |
| C111 | `C111_side_violated` | C111: that a flux leaves through a "Neumann" side is false outside two dimensions, and in two dimensions when the first variable of the block has another condition there. |
| C111 | `C111_entropy_violated` | C111: that the entropy viscosity is negligible where the equation holds is false for a velocity other than (1, 1): the entropy residual leaves the velocity out; the viscosity takes its largest value 1/10. |
| C112 | `C112_basis_violated` | C112: that every basis function of `w` has an equation is false when `w` has more of them than `u`: the equations beyond the number of basis functions of `u` receive nothing, for every state. |
| C113 | `C113_terms_violated` | C113: that the viscosity and the Coriolis parameter of the input act on the flow is false: whatever their values, the residual of every state is the same. |
| C114 | `C114_side_violated` | C114: that a side without a Neumann condition leaves the equation of `b` to the other conditions is false: the test of the condition is commented out, and the term is added there too. |
| C115 | `C115_tri_violated` | C115 is violated for triangles, for every triangle that is not degenerate, already after one refinement. Child 1 is turned over: its signed area has the other sign than the parent's. Its side 2, from node 2 to node 0, is flagged as a part of side 2 of the coarse triangle (from `v2` to `v0`), but node 2 is not on it; the side lies on side 1. Side 0 of child 2, from node 0 to node 1, is flagged as a part of side 0 (from `v0` to `v1`), but node 0 is not on it; the side lies on side 2. So the condition of another side is applied there. |
| C115 | `C115_tet_violated` | C115 is violated for tetrahedra: after one refinement of the reference tetrahedron three of the eight elements are the same, and the point `(1/8, 3/8, 1/4)` inside is in none of them. |
| C115 | `C115_line_violated` | C115 is violated in one dimension: the two halves of a line refer to a node that does not exist, so a second refinement reads outside the array. |
| C115 | `C115_mixed_violated` | C115 is violated for triangles in a quadrilateral: where the first variable of the first coarse element has no condition (an inner side, which is the usual case), the flagged side refers to side `-1` of the coarse element. |
| C116 | `C116_mixed_violated` | C116 is violated for triangles in a quadrilateral: the side index -1 of `C115_mixed_violated` is used as an index. |
| C116 | `C116_triToQuad_violated` | C116 is violated for quadrilaterals in a triangle: the view has three sides, as the coarse element, and side 3 of the new elements is written outside. |
| C116 | `C116_double_violated` | C116 is violated with two variables: a coarse element where the first variable has a Neumann condition on side 3 and the second has none there gives two groups with the same element and side. The second variable has the interface condition in both, so its interface terms are assembled twice; the first has the Neumann condition in one and the interface in the other. |
| C116 | `C116_bcs_violated` | C116 is violated with two coarse elements in a group, one of them on the boundary: there are five groups and four sides, and the type of the fifth group is written outside the view. |
| C116 | `C116_reuse_violated` | C116 is violated with two coarse elements in a group: the fifth group of a later coarse group does not exist in the first one, and a group with more elements than its counterpart reads outside; in the second pair of tables the fifth group, which is element 1 on side 1, takes the degrees of freedom of element 1 but local side 3. |
| C117 | `C117_face_violated` | On faces the gradient of every gradient space that needs no orientations (order one, where no unknown sits inside an edge or a face) is handed out as zero, whatever the basis and the element. |
| C117 | `C117_nodes_violated` | On a quadrilateral that is not a parallelogram the face functions at a node are computed with the Jacobian of an integration point. The element is the image of the map `(ξ, η) ↦ (ξ (2 + η), η)`; the first node is `(-1, -1)` and the first integration point `(-a, -a)`. |
| C117 | `C117_nodes_end_violated` | With fewer integration points than nodes (one point on a quadrilateral) the Jacobians are read past their end. |
| C117 | `C117_point_violated` | The type `HDIV_AC` (and `HFACE`) yields values in the element or on its sides but nothing at given points (sensors). |
| C118 | `C118_face1_violated` | Interior faces in one dimension have weight zero and no normal, so that nothing integrated over them counts, while the ends of the same elements as boundaries have weight one. |
| C118 | `C118_tangent_violated` | The tangent fields of a boundary are not unit vectors: in two dimensions the tangent has half the length of the side (in the mapped direction), in three dimensions it is zero. |
| C119 | `C119_basis_violated` | C119: that the side terms use the velocity functions is false when another variable comes first with the basis of the pressure: with variables `T`, `p`, `u` and bases HVOL, HDIV the position is after the end of the list; and with one more variable after them the functions of that variable are taken. |
| C119 | `C119_data_violated` | C119: that permeability data are permeabilities is false in the hybrid module: it takes the same data for inverse permeabilities; the two modules agree only for the values 1 and -1. |
| C120 | `C120_roots_violated` | C120: that the roots are found is false: on an interval of length `2 pi` the characteristic function has the same sign at all whole numbers, no root is ever found, all frequencies stay zero and the field vanishes, although (for `eta` above 2) there is a root between one half and three quarters. |
| C120 | `C120_three_violated` | C120: that the field is the expansion in three dimensions is false for `KLUQcoeffs`: the exponent of the first permeability is doubled, that of the third is missing, and the eigenvalue of the third direction is taken from the second; with more terms in the third direction than in the second the table of the second is read after its end. |
| C120 | `C120_nowells_violated` | C120: that wells are added to the source is false if none is listed: the source of the user is dropped. |
| C120 | `C120_wellperm_violated` | C120: that a well with given pressure uses the permeability of the medium is false: permeability data and the random field change the velocity equation, the well keeps the function. |
| C120 | `C120_wellsign_violated` | C120: that a well with given pressure injects for a positive function is false: the factor changes sign with the size of the element, at `8 exp(0.5772)` (about 14.2) in the units of the mesh; finer elements take fluid out. |
| C120 | `C120_one_violated` | C120: that the roots are found is false if 1 is one of them: the search compares with the value there, which is zero, and never sees a change of sign; all frequencies stay zero. |
| C121 | `C121_division_violated` | Without exact division cells are lost: five cells asked for on two processes are four cells, and the nodes of the processes are not those of the mesh on one process. |
| C121 | `C121_few_cells_violated` | With fewer cells than processes in a direction the constructor divides by zero: the coordinates are not numbers. |
| C121 | `C121_procid_violated` | The check of the process number lets the number of processes through, although the message says it must be smaller; the mesh it then builds lies outside the rectangle. |
| C121 | `C121_zero_violated` | No processes in the first direction: the division comes before the check that would throw. |
| C121 | `C121_part_sides_violated` | The side set of a process has the cells on the border to the next process: process 0 of two lists its cell on the right side although that side is in the middle of the rectangle. |
| C121 | `C121_edges_violated` | The rectangle announces edges but gives none of them: the map from cells to edges is empty. |
| C121 | `C121_foreign_violated` | A number of the whole mesh that is not on the process is not recognised: process 0 of 2 takes the right-most node of the second process for one of its own. |
| C121 | `C121_rank_violated` | One process number too many is accepted: its part lies above the rectangle. |
| C122 | `C122_brick_violated` | In three dimensions the limits of the second and third direction are exchanged: the far corner of the mesh has the `y` of the bottom plus the extent in `z`, and the other way round; it is the wanted corner only if the two extents are equal. |
| C122 | `C122_phase_violated` | The mesh of the phase space has the wanted far corner only if the lower limits of the phase space are those of the physical mesh, because these are subtracted instead of its own. |
| C122 | `C122_owned_violated` | Without a phase space the owned degrees of freedom are not counted, and the first one is written past the end of a view of size zero. |
| C122 | `C122_variables_violated` | Two variables on a cell of a simple mesh have the same degrees of freedom. |
| C122 | `C122_offsets_violated` | With the first-order basis on quadrilaterals, whose functions are numbered like the corners of the cell, the third and fourth function of a cell have each other's degree of freedom: function 2, which is one at the third corner, has the number of the node at the fourth. |
| C122 | `C122_discontinuous_violated` | So the degree of freedom of the function that is one at a node shared by two cells is not the same on the two cells: the function at the upper right corner of a cell and the function at the upper left corner of the next cell have different degrees of freedom, although the two cells have this node in common. |
| C122 | `C122_hexahedra_violated` | On a brick only four of the eight functions of a cell have an offset. |
| C122 | `C122_phase_brick_violated` | The mesh of a phase space in three dimensions: the far corner, with the lower limits of the physical mesh subtracted and the second and third extents exchanged. |
| C123 | `C123_empty_violated` | Violated: with reuse, a run whose first pass finds the residual small enough marks the matrix as available although nothing was assembled; every later linear solve of that run is given this empty matrix, and the linear solve with it fails. |
| C123 | `C123_adjoint_violated` | Violated: an adjoint run makes one linear solve per time step and no iteration, so the adjoint it produces solves the equation with the matrix it was given. With reuse that is the Jacobian of the run's first step, and the adjoint of every step whose Jacobian differs is wrong. |
| C123 | `C123_precname_violated` | Violated: a misspelt preconditioner is not reported, as a misspelt solver is; any name but the two known ones gives the multigrid preconditioner. |
| C123 | `C123_paramL2_violated` | Violated: the two projections of discretised parameters do not solve anything; the vector meant for the solution keeps what it had, whatever the matrix and the right-hand side, so with an invertible system it is not solved. |
| C123 | `C123_bndryprec_violated` | Violated: the option "use preconditioner" of the boundary projections has no effect, neither in their own sublist nor in the general list. |
| C123 | `C123_krylov_violated` | Violated: the option "krylov vectors" has no effect; two inputs that differ in it only give the iterative solver the same options, and the size of the Krylov space is the bound on the iterations. |
| C123 | `C123_previous_violated` | Violated: the table keeps the number of steps of the first request; a later request for more steps reads past its end. The question whether these Jacobians can be reused is asked with the number of the set where the number of the step is expected: for the second of two sets and one step it reads past the end as well. |
| C124 | `C124_phase_violated` | Violated: with two or more phase unknowns the columns are the spatial unknowns, not multiplied out, so entries are missing on every mesh: the unknown with the largest number couples with itself, and the graph has no diagonal entry for it. |
| C124 | `C124_projection_violated` | Violated: with a fully explicit matrix-free scheme no graph is built, but the default treatment of an initial condition given as functions is a projection with an overlapped mass matrix built from such a graph; the access is outside an empty list, for every number of processes. |
| C125 | `C125_numbers_violated` | C125 violated: if the variable of another module comes first in the physics set, the number of the energy (one dimension), of `rhouy` (two) or of `rhouz` (three) is beyond the storage of the fluxes, and the residual is undefined. |
| C125 | `C125_flux_violated` | C125 violated: in three dimensions the flux of the third momentum is never computed; the storage keeps what it held, zero from its allocation, in every state. |
| C125 | `C125_left_violated` | C125 violated (left eigenvectors in one dimension): the matrix `leftEV` is the inverse of `rightEV` only for a gas at rest or with the speed of sound 2; the second column has `a³` in place of `2a²`. |
| C125 | `C125_roe1_violated` | C125 violated (Roe, one dimension): `gamma = 2`, a trace with `rho = u = a = 1`, and a jump that is an entropy wave with speed 1; the stabilisation of the mass should be the jump 1 and is 0. |
| C125 | `C125_roe2_violated` | C125 violated (Roe, two dimensions): the vectors are in the order of the variables, density, first momentum, energy, second momentum, but the matrices have the energy last. A jump of the tangential momentum of a gas at rest is a wave with speed 0 and needs no stabilisation; the mass equation receives 1. |
| C125 | `C125_inflow_violated` | C125 violated (far field): at the left end of an interval the decomposition is that of the flux to the right. A supersonic inflow (`gamma = 2`, `rho = 1`, `u = 3`, `a = 2`: all speeds `-u ± a`, `-u` along the normal `-1` are negative) should impose the given state, but the condition is met for every given state when the trace equals the interior state. |
| C125 | `C125_sides_violated` | C125 violated: a side with any condition other than `Far-field`, `Slip` or `interface`, for instance `Dirichlet`, keeps the flux that was there before. |
| C126 | `C126_mixed_violated` | C126 violated: a Dirichlet condition on `ureal` replaces its equation; what is left for `uimag` is the difference of the imaginary and the real part of the weak form, so it vanishes although the imaginary part does not. |
| C126 | `C126_bases_violated` | C126 violated: with different basis functions the equations do not vanish together with the weak form: at one point with `u = 1`, `ω² = 1` and the source `-1 - i` the form tested with any real function is `i` times that function, and the equation of `ureal` with the functions 1 and `b` has the value `b`. |
| C126 | `C126_orders_violated` | C126 violated: with fewer functions for `uimag` than for `ureal` the residual is undefined; with more, the equations of the further functions of `uimag` stay empty whatever the solution and the source. |
| C126 | `C126_fractional_violated` | C126 violated: the exponent one with the coefficient `-1` should give back the Helmholtz equation with a real `ω²`; instead the mass term has the factor `1 + i`. Without gradient and source, for `u = 1` and equal basis functions, the equation of `ureal` is `-2 ω²` in place of `-ω²` and that of `uimag` is 0 in place of `ω²`. |
| C126 | `C126_sides_violated` | C126 violated: a Neumann (Robin) side in one dimension, or with `fractional` in any dimension, is undefined. |
| C126 | `C126_condition_violated` | C126 violated: the condition of `uimag` is never looked at: with another condition on `ureal` nothing is added to the equation of `uimag`, although it is Neumann and the form of the side does not vanish. |
| C127 | `C127_blocks_violated` | C127 is false on several blocks: an unknown that the first block does not touch is given a one on the diagonal, and the second block adds its entries to that: the diagonal is one plus the mass, the right-hand side is not changed, so the state is not the projection; for all meshes with two blocks. |
| C127 | `C127_two_blocks_violated` | C127 is false on several blocks, in numbers: with data 1 on two cells of volume 1/2, each a block, the state is 1 on the first and 1/3 on the second; in one block it is 1 on both. |
| C127 | `C127_small_violated` | C127 is false for small elements: a row whose entries sum to less than the tolerance gets a one on the diagonal, whatever its mass; on a block of its own with one function the state is the integral of the data instead of its mean. |
| C127 | `C127_hface_violated` | C127 is false for variables on faces in the projection over elements: their bases are skipped, so the state is zero whatever the data is. |
| C127 | `C127_argument_violated` | C127 is false for the argument that asks for lumping: it has no effect. |
| C127 | `C127_face_adjoint_violated` | C127 is false on faces in an adjoint run: the solver passes the flag of the adjoint run as the flag for lumping, and the sum of each row goes to the column of the last unknown of the element; an unknown that is not the last of any element has a zero on the diagonal unless its row is zero. For all meshes. |
| C127 | `C127_sets_violated` | C127 is false when sets with functions come before sets with numbers: the numbers are looked up under the wrong set: with a set of functions, then numbers 1 and then 2, the second set gets 2, and reading for the third is undefined. |
| C127 | `C127_mixed_violated` | C127 is false when blocks differ: whether numbers are given is decided by the last block; if a block before has texts, reading them as numbers fails. |
| C127 | `C127_missing_violated` | C127 is false when only some blocks have initial conditions: the set is marked as having them, and evaluating them on the other block fails. |
| C127 | `C127_order_violated` | C127 is false for functions that do not sit at vertices: with quadratic functions on a line the unknown in the middle gets zero whatever the data is. |
| C127 | `C127_padding_violated` | C127 is false beside variables with fewer functions than nodes: with a linear variable and one constant on each cell, the value of the constant at the second node is put at the first position, which belongs to the linear variable. Alone, the position read is outside the table. |
| C128 | `C128_box_violated` | C128 is false with default names: the box in which seeds are drawn is not the box of the mesh: the names of the entries differ, so for a mesh of ten units the seeds of a run with default settings lie in the unit cube. |
| C128 | `C128_ties_violated` | C128 is false when an element is half way between two seeds: all later elements get wrong grains. The search returns both seeds for it, and the flat list of all neighbours is read with the number of the element. Here the last element has its centre at the third seed and gets the data of the second one, three units away. |
| C128 | `C128_topology_violated` | C128 is false on meshes with cells of several shapes: elements of a block whose cells have fewer vertices than those of the first block are looked up at a wrong place (the missing vertices count as zero); with more vertices the view is overrun. |
| C128 | `C128_empty_violated` | C128 is false on a process whose first block has no group: a read past the end. |
| C128 | `C128_distance_violated` | C128 is false when there are more seeds than elements on a process: the distance to the seed is read with the number of the seed instead of that of the element, past the end; and what is stored otherwise is zero, since the search writes its radii elsewhere. |
| C128 | `C128_update_violated` | C128 is false with more than one hundred seeds: new rotations melt grains together; an element of grain k and one of grain k + 100 hold the same number, and whatever is drawn they get the same matrix. |
| C128 | `C128_update_boundary_violated` | C128 is false for new rotations after a microstructure made by the program: the boundary groups hold no seed numbers, so the first boundary element reads past the end. |
| C128 | `C128_boundary_violated` | C128 is false on the boundary: the boundary groups hold no data, so element `e` of a boundary group sees the matrix of element `e` of the volume group handled last. |
| C128 | `C128_boundary_zero_violated` | C128 is false on the boundary: a boundary group larger than all groups before sees matrices of zeros. |
| C128 | `C128_columns_violated` | C128 is false for a file with more columns than the settings announce: the data of the element is overrun; by default one column is announced. |
| C128 | `C128_index_violated` | C128 is false on boundaries for data from a file: volume and boundary number the same data point differently. |
| C128 | `C128_grid_violated` | C128 is false for data on a grid in less than three dimensions: the third coordinate of a centre is read past the end. |
| C129 | `C129_lattice_violated` | C129 is false for one entry: the entry (0,2,2,0) is never set (line 111 sets (0,2,0,0) in its place), so it is zero and not C55, and the tensor has not the symmetry of a stiffness. |
| C129 | `C129_shear_violated` | C129 is false for the component (0,2) of the stress in three dimensions: it is half of what it should be, while (2,0) is right; the stress is not symmetric. |
| C129 | `C129_isotropic_violated` | C129 is false for a material given by E and nu: the shear stress is twice that of the isotropic material, since C44 is set to 2 mu. |
| C129 | `C129_constants_violated` | C129 is false for crystals that are not cubic: before the first stress is computed, the constants of the user other than C11, C12, C44 are replaced by those of a cubic crystal. Any two inputs that agree in the other entries give the same stress, in all situations. |
| C129 | `C129_lambda_violated` | C129 is false for the parameters "lambda" and "mu": without a temperature they have no effect on the stress, whatever their values (an inversion for them sees a zero derivative). |
| C129 | `C129_temperature_violated` | C129 is false with a temperature: the variable that switches the thermal stress on is called "T", the field that is read "e"; unless there is a variable of that name too the read is past the end of the list of fields. |
| C129 | `C129_expansion_violated` | C129 is false for the thermal stress of a cubic crystal: with the constants of aluminium (108, 61, 28) a free expansion is not free of stress. |
| C129 | `C129_plane_violated` | C129 is false in the plane for other rotations: a quarter turn about the first axis carries a cubic crystal to itself, but in two dimensions the loops end before the third axis, and the stress in the second direction is zero for every strain. |
| C129 | `C129_threads_violated` | C129 is false when elements are handled by several threads: they share one matrix, and in an order in which every thread does its own steps in turn, element 0 uses the rotation of element 1. |
| C130 | `C130_coupled_violated` | C130 is false for two sets coupled both ways: with one cycle, the default, the first equation does not hold for the result, which is reported as the solution. |
| C130 | `C130_no_cycles_violated` | C130 is false if no cycles are asked for: the initial values are recorded as the solution. |
| C130 | `C130_kind_violated` | C130 is false for any other solver type, "none" being the default: nothing is solved and nothing is said. |
| C130 | `C130_start_violated` | C130 is false for an initial time of one: the state is looked up by the time taken as a number of a stored step, the zero vector is used instead of it, and the gradient is that of another state (a message is printed). |
| C130 | `C130_late_violated` | C130 is false for initial times from one on in general: whatever was stored by a steady run is not found, and the gradient does not depend on the solution. |
| C130 | `C130_negative_violated` | C130: an initial time of minus one or less is undefined. |
| C130 | `C130_sets_violated` | C130 is false for several physics sets: one process leaves the gradient as it was, several wait for ever. |
| C130 | `C130_frequency_violated` | C130 is false for other write frequencies: a number that has never been set decides whether the objective enters. |
| C130 | `C130_leftover_violated` | C130 is false after a transient adjoint run that left a number of a step which is not a multiple of the frequency: the objective does not enter, and from a zero start only what depends on the parameters directly is added. |
| C130 | `C130_dynamic_violated` | C130 is false for scalar parameters that vary in time: no initial time gives a gradient of the stored solution. |
| C130 | `C130_type_violated` | C130 is false for other solver types: the gradient is left as it was. |
| C130 | `C130_explicit_violated` | C130 is false for objectives whose functions depend on the parameters explicitly: the result does not depend on that part. |
| C131 | `C131_corner_violated` | C131 is false at the corners: the functions of both edges count and add up to two, and the function of the left edge is one at the node of the lower edge too. |
| C131 | `C131_batch_violated` | C131 is false for points evaluated two at a time: the second is taken to be on the edge of the first. (How many points are taken at a time is the constant `MaxNumPtsPerBasisEval` of Intrepid2, outside the code at hand.) |
| C131 | `C131_tri_nodes_violated` | C131 is false for triangles: the nodes are those of the interval [-1, 1], the first of each edge lies outside the triangle, and the first function of the lower edge is nowhere one on it. |
| C131 | `C131_tri_shared_violated` | C131 is false for two triangles that share an edge which is the lower edge of both, or of neither: no renumbering of the functions makes the traces agree. |
| C131 | `C131_hex_shared_violated` | C131 is false for hexahedra side by side in the first direction: what is number `(j, i)` on the left face of one is number `(i, j)` on the right face of the other; with linear polynomials the functions with the same number differ. |
| C131 | `C131_hex_nodes_violated` | C131 is false for the nodes of the other faces of hexahedra: the function with number `(j, i)` is one at the point given as node of the function with number `(i, j)`, and zero at its own unless the numbers are equal. |
| C131 | `C131_tet_violated` | C131 is false for tetrahedra of order one or more: the basis cannot be constructed. |
| C132 | `C132_dirichlet_violated` | C132 is false on a side where the pressure of the element is prescribed: `faceResidual` has run on that side too, so that with the prescribed value on the face it counts twice, and constant pressure is not at rest. |
| C132 | `C132_coarse_violated` | C132 is false for subgrid models with coarse variables `pbndry` and `pint` in this order: the flux goes to the second. |
| C132 | `C132_ac_position_violated` | C132 is false on quadrilaterals that are no parallelograms: all four functions are mapped by Piola, also those that should not be; on the trapezoid `(x (2 + y) / 2, y)` the field of positions, whose divergence is constant, is not represented (the basis is then nothing but the usual one of lowest order). |
| C132 | `C132_ac_edges_violated` | C132 is false for HDIV_AC as a basis shared between elements: function 0, tagged as that of the lower edge, flows through the upper edge as well, and its functional gives -1 instead of 1. |
| C133 | `C133_further_violated` | C133 is false for a physics set with further variables: whatever they are, and wherever `S` stands among them, sources and fluxes that were never stored are used, as the loop runs over all variables of the set. |
| C133 | `C133_sides_violated` | C133 is false where water enters or leaves through the boundary: with velocity one and pure water everywhere, a steady solution of the equation, the residual at both ends is not zero: nothing is added on the sides, so both are closed. |
| C134 | `C134_zero_violated` | C134 is false where the velocity vanishes at a point of the element: the stabilisation divides by its size. |
| C134 | `C134_fire_violated` | C134 is false with the speed of a fire: where the level set is flat, and where nothing burns, the speed is zero. |
| C134 | `C134_slow_violated` | C134 is false for slow flow: up to the size `1e-6` the stabilisation divides by the square of the velocity, so for the size `1e-7` it is ten million times too large. |
| C134 | `C134_output_violated` | C134 is false for the length of the gradient in the output: it is not the one in the equations. |
| C135 | `C135_bare_violated` | C135 is false in cells that cannot burn: with no fuel at all the formulas divide by zero, and the factor that should switch the fire off does not help. |
| C135 | `C135_wet_violated` | C135 is false for fuel wetter than its moisture of extinction: the rate is negative, so the front runs backwards. |
| C135 | `C135_half_violated` | C135 is false at the front: without wind and slope, and with fuel, the speed is less than half the rate, as the correction for the fuel is centred at the threshold. |
| C135 | `C135_threshold_violated` | C135 is false for extinction: below the threshold of the fuel a fire does not die, whatever the level set. |
| C135 | `C135_output_violated` | C135 is false for the rate in the output: with a rate given by a function the value at the first point of an element is written at all its points. |
| C135 | `C135_scale_violated` | C135 is false for the function that hands the scale of the level set to the user: it is read from another list, with another default, and written with six decimals. |
| C136 | `C136_order_violated` | C136 is false for files whose elements are numbered column by column: wherever there are two columns and two rows the second cell of the first row gets the data of another one; the reader looks at the coordinates only. |
| C136 | `C136_spacing_violated` | C136 is false on small meshes: the spacings are compared with an absolute tolerance of `1e-4`, so a mesh with cells of `1e-5` and `4e-5` is accepted as one with equal spacings, and a point in the middle cell is looked up in the last. |
| C137 | `C137_stale_violated` | C137 is false when the fields vary: the vectors into which the values are appended are never emptied, and the first entries are read; the residual of every element of the group does not depend on the fields at any point but the first point of the first element. For all groups and all changes of the fields elsewhere. |
| C137 | `C137_space_violated` | C137 is false in three dimensions: even for fields that do not vary, the factor of the reaction is four instead of sixteen; and the option for variable mobility is ignored. |
| C137 | `C137_line_violated` | C137 is false in one dimension: the second component of the gradient of a basis function is read, which does not exist. |
| C138 | `C138_names_violated` | C138 is false for every user who gives the tensors under the names the module announces: the components of `epsr` are looked up as `invepsr` and those of `invmur` as `mur`, names that the module does not register; unless the user happens to define functions of these names too, the first evaluation of the equation of `E` fails, in every stage. |
| C138 | `C138_components_violated` | C138 is false for general tensors: the components `epsr_zy`, `xir_yx`, `zetar_yx` of the user, and everything the user gives as `epsr`, `invmur` or `refractive index`, have no effect at all. |
| C138 | `C138_default_violated` | C138 is false for media given by `eps` and `mu` alone: the tensors that couple the fields are the identity by default, not zero, and with relative permittivity and permeability one the time derivative of `E` drops out of the equations: the residual is the same whatever it is. |
| C138 | `C138_active_violated` | C138 is false when one of the fields is switched off: with only `E` active, fields of `B` are read that do not exist, and with only `B` active the curl of `E`. |
| C139 | `C139_digits_violated` | C139 is false as stated for exact values: a parameter one third, written and read, is not one third any more. |
| C139 | `C139_stale_violated` | C139 is false for time levels left over: files of time levels that the writing run does not have stay on the disk. Two runs write to the same base name, the first with two time levels, the second with one; a later run with two time levels reads the second run's values at its first level and the first run's values at its second. |
| C139 | `C139_same_base_violated` | C139 is false for gradient and parameters under one base name: the run then leaves the parameters, not the gradient, in the files of the gradient. |
| C140 | `C140_transient_violated` | C140 is false for transient runs: with the first order integrator, however many steps the forward run made and whatever its states are, the adjoint run that takes up its files finds the initial state only, makes no step, and its gradient is zero; forward and adjoint in one run visit every step. |
| C140 | `C140_recompute_violated` | C140 is false for states computed anew: the analysis type of an adjoint run is not among those that keep states, so after its own forward run nothing is stored, whatever was recorded, and the adjoint loop reads a list of times that does not exist. |
| C140 | `C140_default_violated` | C140 is false with the names left at their defaults: the forward run writes `fwdsoln.…`, the adjoint run asks for `state.…` and stops, in a directory that has no such file. |
| C140 | `C140_times_violated` | C140 is false for the times after a time step was cut: the files hold no times. A run with step 1 whose first attempt fails records its states at 0, 1/2 and 1; a second order run that takes up the first two files holds them at 0 and 1. |
| C141 | `C141_levels_violated` | C141 is false for parameters with several time levels: the point replaces the first level only. If one parameter of the problem is dynamic, every parameter has a value for each level, and from the second level on every sample has the values of the input. |
| C141 | `C141_adjoints_violated` | C141 is false for the files of adjoints: the stored adjoints are never reset, so the file of the second sample begins with the columns of the first. |
| C141 | `C141_adjoint_states_violated` | C141 is false for the adjoints of a study that does not write its solutions: the states are not kept, so an adjoint run that needs them has none to read, at the first sample, whatever the forward runs recorded. |
| C141 | `C141_component_violated` | C141 is false for a shift beyond the parameters: a component that does not exist is not refused; the study is the one without finite differences. |
| C141 | `C141_pointfile_violated` | C141 is false for the file of points of a finite difference study: the line of a sample is not the point that was run. |
| C142 | `C142_runs_violated` | C142 is false as announced: no mode runs an analysis. Whatever the settings, a restart that succeeds leaves the list of analyses as it was. |
| C142 | `C142_history_violated` | C142 is false for files with all times: the restart takes the first column, which is the initial state of the run that wrote the file, not its last. |
| C142 | `C142_kinds_violated` | C142 is false for the other types of files that are offered, and for misspelt ones: without a complaint nothing is read, the vectors to start from are zero, and they replace the initial state of the input. |
| C142 | `C142_no_file_violated` | C142 is false without a file of states: the flag is set all the same, and a run that starts afterwards has no vectors at all. |
| C142 | `C142_sets_violated` | C142 is false for several physics sets: only the first one is read; the others start from zero, whatever is on file and whatever initial states the input has. |
| C142 | `C142_repeat_violated` | C142 is false for repeated runs: the vectors to start from are those the solver works on, so a second run does not start from the file, but from the end of the first run. |
| C143 | `C143_override_violated` | C143 is false for a file that holds settings of other sections besides its own: they replace those of the main file. |
| C143 | `C143_misspelt_violated` | C143 is false for required sections: that a file is named for one is enough. If the file does not hold the section (here under a misspelt name), the run starts without it. |
| C143 | `C143_no_ending_violated` | C143 is false for a file whose name has no point: it is opened, and nothing is read. |
| C143 | `C143_brought_violated` | C143 is false for a section that an earlier file brings: whether a section is there is decided by the main file alone, and the run stops although all sections are there. |
| C143 | `C143_auxiliary_violated` | C143 is false for the auxiliary sections: if one is in the main file and the other in a file, the run stops although both are there; if only one is given, in a file, the run starts. |
| C144 | `C144_numbers_violated` | C144 is false when the physics set holds a variable of another module: the loops run over all variables of the set and leave the storage of the module, whatever the numbers. |
| C144 | `C144_neither_violated` | C144 is false for settings without a stabilisation: after the message "Error: No stabilization method chosen" the run goes on, with the same method as with "max EV stabilization" (also when that is set to false). |
| C144 | `C144_three_violated` | C144 is false in three dimensions: the module can be built there, with the variables `H`, `Hux` and `Huy`, but its residuals add nothing to the entries, so that every state solves the equations. |
| C144 | `C144_inflow_violated` | C144 is false at the left end of an element in one dimension: the matrices ignore the normal, so that a fast inflow (`g = 1`, depth 1, velocity 3: both speeds `-3 ± 1` along the normal `-1` are negative) should impose the given state, but the condition is met for every given state when the trace equals the interior state. |
| C144 | `C144_sides_violated` | C144 is false on a side with any condition other than `Far-field`, `Slip` or `interface`, for instance `Dirichlet`: the flux that was there before stays. |
| C145 | `C145_rotation_violated` | C145 is false in two dimensions: a rigid rotation by the angle `a` causes the shear stresses `-2 mu sin a` and `2 mu sin a` (the off-diagonal entries of the cofactor matrix are exchanged), so a body that is only turned is not in equilibrium. |
| C145 | `C145_moment_violated` | C145 is false in two dimensions: the stress exerts the moment `(lambda ln J - mu)/J (F10 - F01) (F00 + F11)` on every point, so the Cauchy stress is not symmetric unless the displacement gradient is, `lambda ln J = mu` or `F00 = - F11`. |
| C145 | `C145_small_violated` | C145 is false for small displacements in two dimensions: the shear stress is `2 mu du/dy`, not `mu (du/dy + dv/dx)`, so an infinitesimal rotation is resisted and a simple shear is twice too stiff in one entry and not resisted in the other. |
| C145 | `C145_flux_violated` | C145 is false for the flux of a component with a traction condition: in one and two dimensions an unassigned view is read; in three dimensions the flux keeps the value of an earlier call. |
| C146 | `C146_plane_violated` | C146 is false in plane strain (linear elasticity in two dimensions without the option for plane stress): the stress out of the plane is left out. The same deformation, stretched in one direction only, has the von Mises stress `2 \|mu\|` when it is computed in three dimensions and another one in two dimensions whenever `lambda` and `lambda + 2 mu` are positive; in one dimension it is `\|lambda + 2 mu\|`. |
| C146 | `C146_shear_violated` | C146 is false for "MAG stress": a shear stress of any size has the magnitude zero, while the same stress written in axes turned by 45 degrees has the magnitude `sqrt 2 \|t\|` (its "VM stress" is the same in both). |
| C146 | `C146_turn_violated` | C146 is false for the neo-Hookean module in two dimensions: a body turned by the angle `a` without any deformation is reported with the von Mises stress `2 \|mu\| sin^2 a`. |
| C147 | `C147_statistics_violated` | C147 is false for the statistics of few accepted samples: with one, the variance is not a number (0/0); with none, the mean is not a number, while a variance of zero is reported. |
| C147 | `C147_responses_violated` | C147 is false for several responses with a "Gaussian" or "uniform" observation: only the first response enters the observed density, although the predicted one is that of all of them. |
| C147 | `C147_type_violated` | C147 is false for a misspelt type and for bounds in the wrong order: there is no error, the observed density is zero at every sample, all ratios are zero and no sample is accepted. |
| C147 | `C147_constant_violated` | C147 is false when a response is the same for all samples (or there is only one sample): the width of the kernels is zero and there are no densities. |
| C147 | `C147_file_violated` | C147 is false for a blank line in the file of observed data: it counts as an observation of zeros. And a file with fewer columns than there are responses is read out of range. |
| C148 | `C148_source_violated` | C148 is false for the function "source pr", which the module offers: the residual does not depend on it. |
| C148 | `C148_graddiv_3d_violated` | C148 is false for grad-div stabilisation in three dimensions: the setting has no effect. |
| C148 | `C148_inflow_violated` | C148 is false for the rate of the pressure with inflow or outflow. The integrals are the volume, the heat released, the heat flux and the volume flux; the rate should satisfy `vol p0' + p0 volflux = heatflux + heat`. The two fluxes are exchanged: the rate satisfies the equation only when they are equal (for a positive pressure, or any other than minus one). |
| C148 | `C148_closed_violated` | C148 is false for the mass of a closed system with the default density, the ideal gas law `p0 / (R T)`: the integral of `R rho` is computed with the pressure of the previous step, so the new pressure is the old one and the rate is zero, whatever the temperature has become; the mass follows the temperature. `state` are the weights and temperatures of the quadrature points. |
| C148 | `C148_background_violated` | C148 is false for the background pressure of a closed system: whatever the updates are, no residual of any step reads them; a run with the updates is a run without. |
| C148 | `C148_graddiv_violated` | C148 is false for grad-div stabilisation in two dimensions: the divergence is computed with the derivative of the second component along the first axis. For every rigid rotation this is not zero: an exact solution, for which all strong residuals and the constraint vanish, gets another residual with the stabilisation than without. |
| C149 | `C149_scalars_violated` | C149 is false for runs without discretized parameters: the bound vectors cannot be built (a null pointer is dereferenced), whatever the bounds of the active parameters are. |
| C149 | `C149_file_violated` | C149 is false for a bounds file that does not exist, has a line more than the parameter has components, or begins with a line without two numbers: undefined behaviour instead of an error message. |
| C149 | `C149_blank_violated` | C149 is false for a line without numbers in the middle of a file: the bounds of the line before it are repeated, and all later bounds move on by one component. |
| C149 | `C149_free_violated` | C149 is false for active parameters without a bounds file: with "Bound Optimization Variables" they are not free, the projection sets each of them to zero. |
| C149 | `C149_dynamic_violated` | C149 is false for dynamic parameters: the bounds have one level only, and projecting a vector with a second level of unknowns or of active parameters reads past their end. |
| C149 | `C149_half_violated` | C149 is false for a line with one number in the middle of a file: that number is the lower bound, and the upper bound of the line before it is used again. |
| C150 | `C150_steady_violated` | C150 is false: in a steady run there is no file "output_after_optimization.exo" — it is as it was before — and the file named in the input is replaced by the solution after the optimisation. |
| C150 | `C150_source_violated` | C150 is false: "Disable source on final output" disables nothing. In a run in time the file "output_only_control.exo" has the very solution that is in "output_after_optimization.exo". |
| C150 | `C150_settings_violated` | C150 is false: data generation overwrites the settings. Whatever was asked for in the input, afterwards the response type is "discrete" and the objective is computed. |
| C150 | `C150_gradient_violated` | C150 is false: because of this, every gradient the optimiser gets lacks the derivative of the objective at a fixed solution; with a regularisation term `p²` and an adjoint part `adj` it gets `-adj` for `2p - adj`. |
| C150 | `C150_final_violated` | C150 is false: if the optimiser rejects its last trial point `x1` and returns `x0`, the output after the optimisation and the saved parameters belong to `x1`, while "final_params_.dat" has `x0`. |
| C151 | `C151_parameter_violated` | C151 is false for discretized parameters of type HDIV other than the first one: the search for the name never ends, no output is written at all. |
| C151 | `C151_curl_violated` | C151 is false for discretized parameters of type HCURL: the code looks at the basis with the number of the parameter, not at the basis of the parameter. Nothing is written if that one is of another type, and the access is outside the list if there are fewer bases than that. |
| C151 | `C151_extra_violated` | C151 is false for extra nodal fields: whatever was asked for, zeros are written. |
| C151 | `C151_sets_violated` | C151 is false for several physics sets: an extra cell field which is the variable `T` of the second set. At the elements of the first group it shows the values of the elements of the last group. |
| C151 | `C151_derived_violated` | C151 is false for derived quantities that use a discretized parameter: a module of the first set returns the parameter. At the elements of the first group it shows the parameter of elements of the last group. |
| C151 | `C151_names_violated` | C151 is false for the names of derived quantities: if a module announces a name without returning values, the values of the next modules are written under the wrong names. |
| C152 | `C152_extra_violated` | C152 is false for extra nodal fields in a `UQ` run: they are declared with the number of the sample and written without. |
| C152 | `C152_type_violated` | C152 is false for a discretized parameter without the entry `type`: the parameter manager takes HGRAD (parameterManager_setup.hpp:132), the declaration of the output throws. |
| C152 | `C152_stk_violated` | C152 is false for meshes outside the STK database: asking for output ends the run. |
| C152 | `C152_grains_violated` | C152 is false when new grains are made for each sample without mesh data in the input: the mesh data are written, but were not declared. |
| C153 | `C153_many_violated` | C153 is false for more than three coordinates: whatever the file holds, no point is read (samples of four or more stochastic parameters given by the user are lost without a message). |
| C153 | `C153_comma_violated` | C153 is false for points separated by commas (which the files of values may use): only the first coordinate of a line is read. On the first line the others have no value at all, on later lines they are those of the line before. |
| C153 | `C153_blank_violated` | C153 is false for empty lines: an empty line stands for one more point, equal to the one before; at the start of the file it is a point without values. |
| C153 | `C153_long_violated` | C153 is false for long lines: if a line with its end has more than 99 characters, there are more points than lines. |
| C153 | `C153_short_violated` | C153 is false when there are fewer lines of values than points: nothing compares the numbers, and an integration point next to a point without a record reads past the end. |
| C153 | `C153_quadrature_violated` | C153 is false for values at the integration points: they are read and stored, but no module ever sees them; angles and rotations asked for in the same input are lost as well. |
| C153 | `C153_float_violated` | C153 is false for grids finer than single precision: if rounding makes the coordinates of two points equal, the record of the first is used also at the place of the second. |
| C153 | `C153_gridshort_violated` | C153 is false when the file has fewer points than the grid: an entry past the end is read. |
| C154 | `C154_missing_violated` | C154 is false if the file of points is missing, for instance on a process without sensors (reading it only warns, saying that there are valid uses): the import stops with an exception about the dimension. |
| C154 | `C154_short_violated` | C154 is false for a line with fewer measurements than times: the sensor is compared with zero. Times 1 and 2, one measurement 5. |
| C154 | `C154_times_violated` | C154 is false for a line with more measurements than times: the additional ones are taken to be made at time zero. |
| C154 | `C154_nodata_violated` | C154 is false for sensors without data file when both responses and the objective are computed: an entry of an empty view is compared, at every time. |
| C154 | `C154_mesh_groups_violated` | C154 is false for sensors of the mesh in groups of several elements: values of elements from the number of groups on are never used, so two mesh files that differ there only give the same sensors. |
| C154 | `C154_mesh_datum_violated` | C154 is false for sensors of the mesh: the sensors of a group all get the same datum. |
| C154 | `C154_mesh_count_violated` | C154 is false for a mesh file whose first field is not the number of sensors (numbers in tenths, one element): the sensor at 0.7 with datum 30 is not found, although the file says that there is one. |
| C154 | `C154_mesh_name_violated` | C154 is false for a name that is not in the mesh file: an entry past the end is read. |
| C154 | `C154_side_violated` | C154 is false for a side set that is not in the mesh: entry -1 of the list of names is read. |
| C154 | `C154_first_violated` | C154 is false when both responses and the objective are computed: at a time at which nothing was measured, the sensor is compared with its first measurement. |
| C154 | `C154_mesh_negative_violated` | C154 is false for numbers of sensors that cancel: one sensor in the first element and minus one in the second are none at all. |
| C155 | `C155_order_violated` | C155 is false if a basis of another kind comes before one of kind HGRAD: gradients are kept in a list with entries for kind HGRAD only but written by the number of the basis, past the end. |
| C155 | `C155_face_violated` | C155 is false if a basis on faces comes before another one: the entries are numbered without it. |
| C155 | `C155_vector_violated` | C155 is false for vector valued variables: components two and three keep what they held before. |
| C155 | `C155_set_violated` | C155 is false when another set than set 0 is the current one: the fields do not depend on the unknowns of that set at all. |
| C156 | `C156_regularisation_violated` | C156 is false for a regularisation that depends on the state: it is part of the objective reported, and nothing is handed to the adjoint problem for it. One unknown, regularisation `u` integrated with weight 1: derivative 1, entry 0. |
| C156 | `C156_fixed_violated` | C156 is false for the second of two sets: the unknowns left out of the scatter are those fixed in the first set (`isFixedDOF[0]`). An unknown that is free in its own set and whose number is fixed in the first: derivative of the objective reported 1, entry 0. |
| C156 | `C156_face_violated` | C156 is false for a response at sensors with a face variable before the field it names: a discretised parameter `k` after the unknowns `u` and `lam` (on faces) is read as `lam`. |
| C156 | `C156_points_violated` | C156 is false for what it leaves behind: after any use of a boundary group, the derivative for a sensor moves the first integration point of that group to the sensor, for all later assemblies. |
| C156 | `C156_parameters_violated` | C156 is false for discretised parameters on several processes: an element with a parameter owned by another process reads beyond the vector, although the objective finds all its parameters. |
| C157 | `C157_multiscale_violated` | C157 is false on a process without elements of the first block when there are subgrid models: the residual is that of the ordinary terms, without the subgrid model, while the matrix is that of the subgrid model. |
| C157 | `C157_terms_violated` | C157 is false for a block with `assemble volume terms: false` and boundary terms: in every assembly but the first, each group scatters the residual that the last boundary group left in the workset, though it should scatter nothing. |
| C157 | `C157_faces_violated` | C157 is false for a block with face terms only: each group scatters the face terms of all groups before it again. |
| C158 | `C158_oblique_violated` | C158 is false for face elements on a side whose normal is not along an axis. On a side with one point, one basis function `n` and data `g ≠ 0`, the function `g n` has the trace `g`, but the projection gives another one, which is larger in magnitude. |
| C158 | `C158_sides_violated` | C158 is false with "scalar data" and different numbers on the sides: the number of the side named last is used on all of them, so that the prescribed unknowns of the side "left" get the number of "right". |
| C158 | `C158_text_violated` | C158 is false with "scalar data" and an entry that is no number with a point (an expression, a whole number): the run stops with an exception, wherever the entry stands. |
| C158 | `C158_coefficient_violated` | C158 is false with "scalar data" for face elements (and edge elements): the number is used as coefficient. On a side with one basis function whose normal component is not one the trace is not the number. |
| C158 | `C158_static_violated` | C158 is false for data that depend on time unless "static data" is switched off: all calls write the data of the first time. |
| C158 | `C158_components_violated` | C158 is false for an edge element with a second (or third) but no first component: the side is labelled as one with the condition, and either the run stops because a function is missing, or, if there is also an entry for the variable itself, the components given are ignored, although they should take precedence. |
| C158 | `C158_normal_violated` | C158 is false for a face element with entries for its components: the side is labelled as one with the condition, but the data are looked for under the name of the variable, and the run stops because this function is missing. |
| C159 | `C159_size_violated` | C159 is false for fine elements of different sizes: the weights are those of the reference element, so that small elements count as much as large ones, and the mean of the state over the coarse element changes. Here the fine elements of the new model are [0,1] and [1,4], both meshes have all constants, and the mean times the length goes from 2/3 to 5/6. |
| C159 | `C159_order_violated` | C159 is false for models whose modules define the same variables in another order: variables are matched by their numbers, and the new model gets the pressure of the old one as its temperature. |
| C159 | `C159_mixed_violated` | C159 is false for models with variables that have different numbers of unknowns (a velocity with quadratic and a pressure with linear functions, say): the values are read up to the largest number, for all variables. It is false for variables with vector values: the view for their values has the wrong rank. |
| C159 | `C159_room_violated` | C159 is false for elements with more than 64 unknowns (three variables with quadratic functions on hexahedra have 81): a row of the graph has room for 64 columns. |
| C159 | `C159_outside_violated` | C159 is false for points that are in no element of the old model: the functions of its first element are taken there, all with the coefficient of unknown zero. |
| C159 | `C159_plain_block_violated` | C159 is false for a mesh with a block that has a subgrid model and one that has none: the flags are computed from variables of the groups of the second block that were never set. |
| C160 | `C160_rejected_violated` | C160 is false for asynchronous steps when a coarse step is rejected and tried again with half the length: the fine model keeps the state and the time of the rejected try, and its fine steps in the next try go back in time, from `t + dt` to `t + dt/2`. |
| C160 | `C160_abscissa_violated` | C160 is false for asynchronous steps under a coarse method whose stage is not at the end of the step (implicit midpoint rule, say): the fine state is only taken to the time of the stage, and stays behind the coarse one, for all steps. |
| C160 | `C160_second_run_violated` | C160 is false for the second forward run of a program (a sample, an iteration of the optimisation): nothing puts the fine models back, and the first step of the new run, from `t0` to `t0 + dt`, starts from the last fine state of the run before and goes from its end time to `t0 + dt`. |
| C160 | `C160_history_violated` | C160 is false for synchronous steps with the first kind of model: the earlier values of the fine groups are never set. Whatever steps were taken before, the fine solves of a step see the earlier value zero. |
| C160 | `C160_first_violated` | C160 is false for the first synchronous step with the second kind of model: the earlier value is zero and not the initial state. |
| C161 | `C161_changing_violated` | C161 is false for models of the first kind when models can change ("static subgrids" false): the reported error is zero, whatever the fine states. |
| C161 | `C161_face_violated` | C161 is false as soon as an error on faces is asked for and a process has a second coarse group with fine groups: the weights are read from a workset that does not exist, also for the volume errors of the same list. |
| C161 | `C161_inactive_face_violated` | C161 is false for errors on faces with several models, also with one coarse group: the errors on the faces of a model that the group does not use are reported for that model. |
| C162 | `C162_electron_violated` | C162 is false for the electrons: for all data the rows of `E` receive nothing, and the rows of `H` receive, besides their own weak form, the rate of `H` minus the source of `E`. With equal bases the equation of `H` is `2 H_t = source_H + source_E`: with rate 1, sources 1 and 0 at one point of weight 1 the row of `H` is 1, not 0. |
| C162 | `C162_undetermined_violated` | C162 is false for `E` also in this way: two states that differ in the rate of change of `E` (and in all gradients) have the same residual in all entries, so the equations do not determine `E`. |
| C162 | `C162_witness_violated` | C162 is false in the case named in `C162_electron_violated`: `H` follows its source, and its row does not vanish; the row of `E` vanishes although `E` does not follow its source. |
| C162 | `C162_transport_violated` | C162 is false for the transport announced in the comments (`DF(u) = q/m Egrad grad_v(u)`): a state at rest with a gradient of one and an acceleration of one has the weak form 1 for `C`, the module gives 0. |
| C162 | `C162_phase_source_violated` | C162 is false for `phase elliptic` used alone: its source is registered at the location "tensor ip" and evaluated at "ip". Whatever is registered besides, the volume residual throws unless another module or the user registers a function called `source` at "ip", and then the text of that function is used. |
| C162 | `C162_phase_violated` | C162 is false for `phase elliptic` with several phase elements: neither the point nor the entry depends on the phase element. With two elements of one point, rate 1, sources 0 and 5, the integrals are 1 and -4; the one entry that is addressed receives 2. |
| C163 | `C163_weights_violated` | C163 is false: the weights of the integration points are not used. With weights 1 and 3 and a current of 1 and -1 the rows receive nothing although the integral of the current is -2. |
| C163 | `C163_rates_violated` | C163 is false: the rates of change are added at the positions 0 to 7 whatever the offsets are. With two basis functions the rate of the scalar potential enters the equation of the vector potential and not its own. |
| C163 | `C163_boundary_violated` | C163 is false: currents and charges on sides have no effect, because the type of every boundary is 0. On the side of test 4 the current adds 4/5 in the branch for given currents, nothing in the residual. |
| C164 | `C164_current_violated` | C164 is false: the control is not a current, as announced by the comment of the code. A uniform control current of 5 on an element where the curl of the basis function is 1 and -1 has no effect, in two and three dimensions; as a current it would add 10. |
| C164 | `C164_component_violated` | C164 is false: in two dimensions the second component of the control has no effect. |
| C164 | `C164_absorbing_2d_violated` | C164 is false: in two dimensions the absorbing condition does nothing. |
| C165 | `C165_violated` | C165 is false for "fully explicit" runs: no physics modules are imported for any derivative type, while a call for the Jacobian evaluates every block with elements with the modules of type `AD` and thus reads outside of an empty table, whatever the analysis (an optimisation or a sensitivity of a fully explicit problem). |
| C165 | `C165_create_violated` | C165 is false for "fully explicit" runs of another analysis than "forward" and "dry-run" on a process that has no elements of the first block: the workset of the next block is put at the first place of the table and then sought at the second. |
| C166 | `C166_face_violated` | C166 is false for parameters of type HFACE: the diagonal is zero, so the optimiser sees every field, every step and every gradient with norm zero and every inner product zero. |
| C166 | `C166_violated` | C166 is false for continuous linear parameters: the diagonal is that of the mass matrix, not its row sums, so the constant field one on the unit interval has inner product 2/3 with itself instead of 1. |
| C166 | `C166_lumped_violated` | C166 is false for continuous linear parameters with "lump mass": the field that falls from 1 to -1 on the unit interval has inner product 1 with itself instead of 1/3. |
| C166 | `C166_matrix_empty_violated` | C166 is false for the matrix with "lump mass" or with products free of matrices: it is left empty, so the form it represents is zero for all fields, also where the inner product is not. |
| C167 | `C167_parallel_violated` | C167 is false for simple meshes on processes beside each other: the table is made with the number of elements of the whole mesh in a row, not of the part, so the first element of the second row of every process is given the second coordinates of the first row. |
| C167 | `C167_brick_violated` | C167 is false for simple meshes in three dimensions: nothing is put into the tables and no coordinate can be read. |
| C167 | `C167_alone_violated` | C167 is false with "use ip database" alone: the tables are made with "use basis database" only and no coordinate can be read. |
| C167 | `C167_weights_violated` | C167 is false for smaller values of "storage proportion" without a database: the groups beyond the share are given basis functions computed on the fly but no weights. |
| C168 | `C168_fix_zero_rows_violated` | C168 is false with "fix zero rows": the option is meant for the matrix of the state, but it also runs on the derivative of the residual with respect to the parameters. A parameter that is not in the residual at all gets the adjoint at the unknown with the same number as its gradient. |
| C168 | `C168_multiscale_violated` | C168 is false for blocks with a subgrid model: `fixDiagJac` looks at the diagonal of the array that holds the derivatives with respect to the parameters. With fewer parameter unknowns than unknowns it leaves the array; otherwise it replaces derivatives: here the entry for parameter 1 and unknown 0 becomes -1 although the derivative is 5. |
| C168 | `C168_reuse_violated` | C168 is false with "reuse Jacobian": the derivative with respect to the parameters is then kept from the first step of the adjoint run, although it depends on the state. For states 2 and 3 in the first two steps of the adjoint run the matrix used in the second has the entry 2 instead of 3, also for a problem that is linear in the state. |
| C169 | `C169_adjoint_violated` | C169 is false: an adjoint evaluation of a fine model follows a null pointer, for every fine problem, state and coarse adjoint, in steady runs and in transient runs (given a positive tolerance and at least one iteration and sub-step). |
| C169 | `C169_sensitivity_violated` | C169 is false: an evaluation for the derivative in scalar parameters follows a null pointer, for every fine problem, in steady runs and in transient runs with at least one sub-step. |
| C169 | `C169_limit_violated` | C169 is false even if the vector for the adjoint is supplied: for the fine problem `3 u = λ` with solved forward state (`λ = 6`, `u = 2`) and the coarse adjoint `φ = 9` the adjoint of the fine problem is `3`, the solver returns one per allowed iteration; and with `φ = 6` it returns zero. |
| C169 | `C169_alias_violated` | C169 is false even if the vector for the adjoint is supplied: with two sub-steps both stored forward states are the second one, and that one is computed with the previous state of the whole step: for `3 u = u' + λ`, start 9 and `λ = 0` the states of the forward run are 3 and 1, those stored are 3 and 3. |
| C169 | `C169_mortar_violated` | C169 is false even if the vector for the adjoint is supplied: with the mortar method the derivative of the residual inside the fine elements is left out of the parameter gradient, and over several sub-steps only the last one counts. |
| C170 | `C170_constant_violated` | C170 is false for a variable none of whose unknowns has an equation in the element: the replaced rows all vanish on constants, so that the element's matrix is singular for every number of unknowns. |
| C170 | `C170_coupling_violated` | C170 is false for equations whose own unknown does not occur in them: of the regular matrix with rows (1, 1) and (1, 0), one unknown in each of two variables (as for a pressure), the second row becomes (1, 1) and the matrix is singular. |
| C170 | `C170_units_violated` | C170 is false for small units: the entries are compared with an absolute number, so that every regular diagonal matrix is replaced by a singular one when it is scaled down (two unknowns). |
| C170 | `C170_adjoint_violated` | C170 is false for the adjoint: the adjoint's matrix is not the transpose of the forward matrix. For the element with three unknowns and no equation for the middle one the forward matrix has `−1/2` in row 1, column 0, while the adjoint's matrix has zero in row 0, column 1. |
| C170 | `C170_residual_violated` | C170 is false when an equation is replaced whose residual is not zero: the residual stays (the code sets it to zero before it is computed), and the increment differs from the average by it. |
| C170 | `C170_shared_violated` | C170 is false for an unknown which two elements share and only one of them has an equation for: the replacement of the other element is added to the equation. Two unknowns in each element, the second of the first being the first of the second; the equation `2 w₁ = −r` becomes `3 w₁ − w₂ = −r`. |
| C171 | `C171_explicit_violated` | C171 is false for the explicit derivative of the objective: in every sequence of calls the evaluations made to differentiate the objective with respect to the scalar parameters see them without any derivative slot (the seeds are written to the table over all time indices and never copied to the view), so that for an active component with a slot the values wanted are not seen. |
| C171 | `C171_first_violated` | C171 is false for the first forward run: whatever values the parameters have been given, the initial conditions and the objective at the initial time are evaluated with all scalar parameters zero (the view is filled for the first time after them). |
| C171 | `C171_stale_violated` | C171 is false for later forward runs: after a steady run with parameters `h1`, new parameters `h2` and another run, the initial conditions of the second run (and the objective at its initial time) are evaluated with `h1`. |
| C171 | `C171_static_violated` | C171 is false for Dirichlet data with the default options: when the data is static in all physics sets (the default), then after whatever parameter updates, a first forward run and any further calls, every evaluation of the Dirichlet data ever made saw all scalar parameters zero. |
| C171 | `C171_steady_dynamic_violated` | C171 is false for the steady adjoint with a time-dependent active parameter: at current time zero the index handed to the parameter manager is minus one, outside the table. |
| C171 | `C171_steps_violated` | C171 is false when the time loop makes more steps than the table has indices (a step cut in two is enough): with a time-dependent parameter and the last index used up, one further attempt reads outside the table. |
| C171 | `C171_sets_violated` | C171 is false with two or more physics sets: an adjoint run evaluates nothing, and leaves tables and view as they were. |
| C172 | `C172_order_violated` | C172 is false for other orders of the unknowns: the parameter with local index `i` gets the derivative with respect to the parameter whose *global* number is `i`. |
| C172 | `C172_processes_violated` | C172 is false on several processes: as soon as an element of a sensor has a parameter whose global number is not below the number of unknowns of the process, the loop writes beyond the gradient. |
| C172 | `C172_state_violated` | C172 is false for the state when a variable has a basis of another kind than HGRAD: with the bases of kind HGRAD first (any other order makes `computeSensorBasis` fail, `C155_order_violated`) the list of gradients has no entry for it. `computeObjective` asks for the kind first. |
| C173 | `C173_quadrature_violated` | C173 is false for sensors at quadrature points on several processes, where each process has its own list of sensors, all found (`importSensorsOnQuadrature`, postprocessManager_sensors.hpp:661-700): line `ss` holds the *sums* of places and values of the sensors number `ss` of the processes. |
| C173 | `C173_lengths_violated` | C173 is false for sensors at quadrature points on several processes with different numbers of points: the processes do not meet in the same number of sums. |
| C173 | `C173_dft_violated` | C173 is false for the output type "dft": as soon as a process has a sensor, it looks at a record that does not exist. |
| C173 | `C173_hdf5_violated` | C173 is false for HDF5 on several processes: a process with fewer sensors than the number of one of its sensors reads beyond its records. |
| C173 | `C173_names_violated` | C173 is false for two objectives with sensors in one block: the names of the files do not tell them apart, of the first objective nothing is left if the second has as many fields. |
| C174 | `C174_sensors_violated` | C174 is false when the boundary has more points than groups times directions: the result does not depend on the fields of the other sensors. |
| C174 | `C174_directions_violated` | C174 is false when there are more directions than sensors: the loop reads beyond the transform in the first group with a point. |
| C174 | `C174_phi_violated` | C174 is false for the second polarisation: its amplitude, power and cross section in the file are zero, whatever the field. |
| C174 | `C174_theta_violated` | C174 is false for the first polarisation: the columns do not depend on the imaginary part of the first potential nor on the other three, although modulus and sum with the fourth are asked for. |
| C174 | `C174_processes_violated` | C174 is false if a process has no sensor: the others wait for it in the sum. |
| C174 | `C174_defaults_violated` | C174 is false with the defaults: the impedance is 0 and is divided by. |
| C174 | `C174_power_violated` | C174 is false for the power: it is 4π times the one of the formula the code quotes (338), k0²/(4π)²/N0 times the squared modulus. |
| C175 | `C175_times_violated` | C175 is false for several recorded times in a solve: fluxes 2 and 3 give the line 5. |
| C175 | `C175_solves_violated` | C175 is false for solves without a report in between: the next line holds those of all solves before as well. (An input file runs one analysis; this needs a caller of `run(type)`, /repo/src/managers/analysis/analysisManager_solve.hpp:26, with an optimisation or samples first and then a forward solve, 131-135.) |
| C175 | `C175_unreported_violated` | C175 is false for programs that do not report (optimisation, samples): nothing is written, whatever was recorded. |
| C175 | `C175_append_violated` | C175 is false if the program is run again in the same directory: the first lines are those of the earlier run. |
| C175 | `C175_number_violated` | C175 is false if more values are asked for than the block has variables: the flux of a variable that does not exist is read. |
| C176 | `C176_processes_violated` | C176 is false on several processes that all have points: files only come about if every process has exactly as many points as the table has columns (4 for points in space and weights). |
| C176 | `C176_empty_violated` | C176 is false if some process has points in the block and another has none: the one waits for the other. |
| C176 | `C176_unknown_violated` | C176 is false for a block that does not exist: the data are those of the first block. |
| C176 | `C176_last_violated` | C176 is false even then: with two processes of two points each in one dimension, only the points of the last are in the files of the block. |
| C176 | `C176_host_violated` | C176 is false for sides: with two processes, the file of the first process holds the points of the second, those of the first are in no file. |
| C177 | `C177_zero_violated` | C177 is false for orders below one, which are accepted: there is no vector for the earlier step, and the first step of the first run writes it. |
| C177 | `C177_order_violated` | C177 is false for orders above six, which are accepted: whatever happened before, and with any start-up method, the step at which the method takes over reads a weight that does not exist. |
| C177 | `C177_synchronous_violated` | C177 is false for synchronous fine models under a coarse method of higher order: the coarse weights are copied (src/subgrid/subgridDtN_solver.cpp:302; only the number of stages is compared, 280), the tables were allocated for the method of the fine model, and every evaluation reads outside them. |
| C177 | `C177_startup_violated` | C177 is false for fine models that take their own steps and have a start-up method: nothing changes to the main method. Order two after a start with order one: in every fine step, also long after the start, with the states 1 and 0 before and the iterate 4 the derivative is 3, the one of order one, and not 4. |
| C178 | `C178_processes_violated` | C178 is false on several processes: they hold one mesh together and solve together, but each sets its own sample. With distinct samples there is no solve for which two processes have the same one. |
| C178 | `C178_count_violated` | C178 is false on several processes: if the number of samples is no multiple of that of the processes, the first process takes part in one solve more than the last one. |
| C178 | `C178_empty_violated` | C178 is false with fewer samples than processes: a process without samples reads the first one. |
| C178 | `C178_write_violated` | C178 is false on several processes: all of them write the files of samples, so those of one process remain. |
| C178 | `C178_short_violated` | C178 is false if the file has fewer samples than asked for: there is no error, the last sample takes the place of the missing ones; with a file of as many weights these have weight zero, without one every copy has the full weight. |
| C178 | `C178_missing_violated` | C178 is false if the file of samples cannot be opened: there is only a message, and the objective reads values of a sample that has none. |
| C178 | `C178_final_violated` | C178 is false if the optimiser rejects its last trial point `y` and returns `x`: the objectives written belong to `y`, "final_params_.dat" to `x`. |
| C178 | `C178_steady_violated` | C178 is false for steady problems: there is no file for a sample, the file of the input has the last one. |
| C178 | `C178_primal_dual_violated` | C178 is false with "Use Primal Dual" in a program compiled without it: nothing is optimised and there is no message, the final parameters are the initial ones, and the weights written are zero. |
| C178 | `C178_iterate_short_violated` | C178 is false if the file of the initial point is too short: the last number is repeated, without an error. |
| C178 | `C178_iterate_many_violated` | C178 is false with more than one vector of unknowns (fields beside scalars, or several time levels): the numbers of all of them are written to the first one, past its end. |
| C178 | `C178_iterate_missing_violated` | C178 is false if the file of the initial point cannot be opened: the run goes on from the values of the input. |
| C178 | `C178_word_violated` | C178 is false if a word of the file of samples is no number: there is no error, the coordinate is zero, the ones after it are those of the sample before, and all later samples are copies of this one. |
| C179 | `C179_vector_violated` | C179 is false for vectors on two coarse groups: if a group other than the first uses the model, the program reads past the list of worksets of plain numbers, which has one entry. |
| C179 | `C179_average_violated` | C179 is false for vectors on one coarse group: the averages are those of the table in the shared data and not of the group's own; no fine solution is gathered into it, and with zeros there the field is zero whatever the solution is. |
| C179 | `C179_extra_violated` | C179 is false for extra fields. Those at nodes are zero. Those of elements and derived quantities are evaluated with what the worksets of plain numbers held before, neither with the solution and the points of the group nor with the time; and the values of elements are those of the groups that use the model, one after the other: after a group that does not they belong to other elements. |
| C179 | `C179_first_violated` | C179 is false for the first model: a steady one writes no file, a transient one a file without any step. |
| C179 | `C179_steady_violated` | C179 is false for a steady fine model in a transient run: every step but the last is lost. |
| C180 | `C180_orientation_violated` | C180 is false for elements whose orientation is not that of the element at the same place of the first coarse group: where the two orientations give different values, the table of a later coarse group holds the wrong ones. |
| C180 | `C180_larger_violated` | C180 is false when a later coarse group has more elements than the first: the tables of the first group are read out of range. |
| C180 | `C180_quadToTri_violated` | C180 is false for triangles in a quadrilateral, with any number of refinements: only side 0 is flagged, and for side 1 the number of elements is divided by zero. |
| C180 | `C180_triToQuad_violated` | C180 is false for quadrilaterals in a triangle, with any number of refinements: sides 1 and 2 are not flagged. |
| C180 | `C180_tri_violated` | C180 is false for triangles in a triangle as soon as they are refined: side 1 is cleared in every child. |
| C180 | `C180_initial_violated` | C180 is false for a fine problem with initial conditions and more than one coarse group: the second group reads a workset that does not exist. |
| C180 | `C180_tri_sizes_violated` | C180 is false for the sizes of the boundary groups of triangles: with `r` refinements a coarse triangle has `3 * 2 ^ r` fine sides on its boundary, but `2 * 3 ^ r` are flagged, `3 ^ r` each at sides 0 and 2, and none at side 1 once there is a refinement; for triangles in a quadrilateral `4 * 3 ^ r` at side 0 instead of `4 * 2 ^ r`. |
| C181 | `C181_selection_violated` | C181 is false for a word that is not known: the choice of the models depends on a variable without a value. |
| C181 | `C181_block_violated` | C181 is false for a model that names a block the mesh does not have: it is attached to block 0 without a message. |
| C181 | `C181_type_violated` | C181 is false for a model of another type, such as "Explicit FEM": as the only model it ends in a write to an empty list; after other models it makes no model, but the one before it gets its block and usage. |
| C181 | `C181_single_violated` | C181 is false for a single model with a usage of its own: the usage of the input is not read. |
| C181 | `C181_info_violated` | C181 is false on a process without elements of block 0, if there is a model: the names of the sides are read from the first group of that block. |
| C181 | `C181_default_violated` | C181 is false for the default of "usage" on a mesh of several blocks: the only model of block 1 is not used by default, and the groups of block 1 get the last model of the input, which belongs to block 0. `count s` is the number of points at which the usage of model `s` is at least one, so zero for "0.0". |
| C182 | `C182_curl_violated` | C182 is false for the curl in the plane: the input has to give the components "[x]" and "[y]" of the curl, is accepted, and the error reads a solution field that does not exist; the plane has one curl. |
| C182 | `C182_unknown_violated` | C182 is false for names the section should not have, a misspelt variable for instance: no message, no error is measured. `k` is none of the names of a true solution of the variables. |
| C182 | `C182_plane_violated` | C182 is false for a curl of the plane given by its one name "curl(E)", that of the solution field: it is ignored. |
| C182 | `C182_scalar_violated` | C182 is false for a true solution with the name of a vector variable or of a variable on faces: it is accepted without a message and not measured. |
| C183 | `C183_family_violated` | C183 is false for blocks with different variables: the first block has one variable with linear elements, the second also one with quadratic elements; a piecewise constant parameter, whose unknowns are those of piecewise constants, is evaluated on the second block with the quadratic basis functions. Exchanging the two blocks the position lies past the end of the families of the second block. |
| C183 | `C183_custom_violated` | C183 is false when a custom initial guess is announced ("use custom initial param guess"): every unknown starts at zero, whatever the initial values; no code supplies the guess. |
| C183 | `C183_static_violated` | C183 is false for a parameter that is not dynamic next to one that is: nothing looks at the flag of the parameter, so it takes the value of the level of each time step, whatever the values are. The same holds for scalar parameters: after `updateParams` the active parameter `a`, not dynamic, has the value 1 in the first time step and 2 in the second. |
| C183 | `C183_static_scalar_violated` | The scalar case of `C183_static_violated`, through the table of scalar parameters. |
| C184 | `C184_dimension_violated` | C184 is false for a section without `dimension`: the default is 0, for which there is no cell type, although the fine scales and the second constructor take 2. |
| C184 | `C184_default_violated` | C184 is false in three dimensions for a section that leaves out the element type: the default is the quadrilateral. The type is needed for an Exodus file, which knows its cells, and for a simple mesh, which has hexahedra only. |
| C184 | `C184_output_violated` | C184 is false for meshes with blocks of different cell types: with a block of cells `a` and a block of cells `b` that have different numbers of nodes, for whatever element type the input names, the values of one of the blocks cannot be written: a row is read past its end. |
| C184 | `C184_phase_violated` | C184 is false for every phase space: with a section `Phase Mesh` of positive dimension the discretization interface dereferences the cell type of the phase space, which is never set; in one dimension the number of phase elements is asked of a mesh that does not exist; and the nodes of phase elements are those of the physical mesh, or a null pointer unless that is a simple mesh. |
| C184 | `C184_fine_violated` | C184 is false for a fine scale whose element type is given by the entry `shape`, which is good for the coarse mesh: the fine elements are quadrilaterals while the mesh interface answers triangles, from which the basis functions are taken. |
| C184 | `C184_simple_violated` | C184 is false for a simple mesh with simplices: the cells of the mesh are quadrilaterals or hexahedra, the number of nodes is that of a triangle or a tetrahedron. |
| C185 | `C185_hvol_violated` | C185 is false for the type HVOL of positive order: the basis is that of constants, whatever the order, while the order counts for the quadrature. |
| C185 | `C185_quadrature_violated` | C185 is false for several physics sets: the entry of the first one is used (its default when it has none), those of the others are never read, even when they ask for more than is used. |
| C185 | `C185_sparse_violated` | C185 is false for the sparsifying rule on blocks of different order, where every block takes that of the last one, and in one and two dimensions, where no rule is made. |
| C186 | `C186_skipped_violated` | C186 is false for variables on faces with the projection on elements, which is the default: whatever is given, they start at zero. |
| C186 | `C186_mixed_violated` | C186 is false for the projection on faces of a set with a variable that is not on faces, such as the usual pairs of a field and its trace: the run ends. |
| C186 | `C186_vector_violated` | C186 is false for interpolation with a variable of several components: its functions have the names of the components, the one that is asked for does not exist, and the run ends. |
| C186 | `C186_type_violated` | C186 is false for any other value of `initial type`: nothing is said and the state is zero. |
| C186 | `C186_whole_violated` | C186 is false for a whole number (without a point): it counts as nothing given. |
| C186 | `C186_same_violated` | C186 is false for a variable whose name occurs in an earlier physics set: it gets the values of that set. |
| C187 | `C187_violated` | C187 is false: with `enable memory purge` every run that solves something is undefined, whatever solver, storage, output and number of processes are chosen, while without it the same run goes through. The setup of the linear algebra asks the mesh that was just removed; when an output keeps the mesh, the output reads the removed numbers of the elements. |
| C188 | `C188_text_violated` | C188 is false: a weight given as an expression (as `E: permittivity` in proceedings_paper_example/1D-Periodic/input.yaml) counts as one, without a message. |
| C188 | `C188_whole_violated` | C188 is false: a weight given as a whole number counts as one whatever the number is. |
| C188 | `C188_serial_violated` | C188 is false: on one process an explicit run without matrices has no exporter, so the norm is undefined whatever the weights are. |
| C188 | `C188_sets_violated` | C188 is false with several physics sets: the positions are those of the set the worksets were left at. If that set has more variables on a block than another set, the weights of the other set are read beyond the end of their list. |
| C188 | `C188_left_violated` | C188 is false with several physics sets: when the worksets were left at the last set, the second variable of the first set gets weight zero instead of three; when they were left at the first, the norm is undefined. |
| C189 | `C189_padding_violated` | C189 is false for meshes spread over ten or more processes: the first ranks look for a file with another name, find none, and go on without data and without a message. |
| C189 | `C189_missing_violated` | C189 is false for a file that is not there: the run goes on as if the file had no variables. |
| C189 | `C189_blocks_violated` | C189 is false for the data of blocks other than the one with number 1 and of steps other than the first: they have no influence. |
| C189 | `C189_first_violated` | C189 is false for files without a block of number 1: with at least one variable the run uses a number of elements that was never set. |
| C189 | `C189_name_violated` | C189 is false for variables whose name has "Val" and fewer than three "_": the part looked for lies outside the list. |
| C189 | `C189_nodal_violated` | C189 is false for nodal data: "have nodal data" reads nothing. |
| C189 | `C189_blank_violated` | C189 is false for a name with "Val" whose fourth part is empty or blank: the number compared was never set. |
| C190 | `C190_shared_violated` | C190 is false on several processes: an element with an unknown the process shares but does not own makes it read outside the vector, whatever the parameter is. |
| C190 | `C190_vector_violated` | C190 is false for vector parameters: nothing is written for them. |
| C190 | `C190_index_violated` | C190 is false for parameters of type "HCURL" (and others not named) whose number is not below the number of bases: the test for the type reads outside the list. |
| C190 | `C190_levels_violated` | C190 is false for parameters that change in time: only the level of the last step is in the frame. |
| C191 | `C191_gradient_violated` | C191 is false for gradients: while data is collected from two or more models, the gradient left in the group is the one of the last model but one, though the residual is the one of the last. |
| C191 | `C191_rows_violated` | C191 is false for groups smaller than the shared table of the block: a line is written for every row of the table, so that the number of lines of a call is that of the rows. |
| C191 | `C191_given_violated` | C191 is false with the option `have ML models: true`: data is collected for ever, so that after any number of updates every residual after the first iteration is the one of the last model, whatever the trained program chooses. |
| C191 | `C191_static_violated` | C191 is false with static subgrids, which is what one gets without the option: no update ever counts, so that data is collected for ever and nothing is written. |
| C191 | `C191_nothing_violated` | C191 is false if nothing was collected, for instance if every step needs one iteration, or the process has no group with subgrid models: the update after the last training step reads outside the tables. |
| C191 | `C191_many_violated` | C191 is false for five or more models: there are three proportions only, and the fourth is read. |
| C192 | `C192_short_violated` | C192 is false for a file with too few numbers: the active values that are missing silently get the last number of the file (zero for an empty file). |
| C192 | `C192_word_violated` | C192 is false for a file that starts with a word that is no number: all active values become zero. |
| C192 | `C192_missing_violated` | C192 is false without the file: for parameters that do not change in time all active values become zero, while those that change in time are kept. |
| C193 | `C193_names_violated` | C193 is false for a block whose name is part of the name of another one: an objective for the other block only is evaluated on it too. |
| C193 | `C193_counted_violated` | C193 is false for the misfit of the whole state ("discrete control") and for the squared norm of the parameters: they are counted once for each block the objective is evaluated on. |
| C193 | `C193_norm_violated` | C193: the squared norm of the parameters on its own: for an objective with nothing else it is added once for each block. |
| C193 | `C193_target_violated` | C193 is false for a response with a target over two blocks: the target is compared with the response of each block, not with the sum; the value differs from that of the whole by `2 w (a b) - w T²`. |
| C194 | `C194_generate_violated` | C194 is false with a parameter that changes in time: "datagen" is one only in the current level `i` of the run that generates the data, all other steps see what it was; afterwards it is zero only in the last level, and stays one in level `i`. |
| C194 | `C194_size_violated` | C194 is false for a "datagen" with more than one value: its second value is taken from outside of the list of new values. |
| C194 | `C194_first_violated` | C194 is false for samples with a parameter that changes in time: for samples set by the number of the type, as in a study of uncertainty, only the first step sees the sample, all later steps see the initial values. |
| C194 | `C194_last_violated` | C194 is false for samples set by the name of the type, as in stochastic optimisation: after a run (current level the last one) a sample is seen by the last step only. |
| C195 | `C195_name_violated` | C195 is false when a name is used again: a quantity of the input file named like one of a module, at the same location, is reported with the integral of the module's integrand; and so is a quantity whose name with " integrand" added is a function of the input file already. |
| C195 | `C195_location_violated` | C195 is false for other locations: whatever the integrand, the quantity is reported as zero and no message says that the location is not known. |
| C195 | `C195_pressure_violated` | C195 is false for a closed system on several blocks: the background pressure is that of the last block alone, whatever the integrals of the others, not the quotient of the integrals over the domain. |
| C195 | `C195_rate_violated` | C195 is false also for the rate: nothing changes from one step to the next, and the rate of the pressure on two blocks is not zero; over the whole domain the pressure is two, on the last block three. |
<!-- disagreements:end -->
