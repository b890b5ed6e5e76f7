# A machine-checked model of the OPM/IFEM core in Lean 4

`/repo` is read as text; nothing is compiled or run.  The model lives in
`lean/Verif/`; every model definition cites the file and lines it models.

## Layout

* `Verif/Model/*.lean`  – executable, total model functions (one file per source module).
* `Verif/Spec/*.lean`   – small specifications, written without reference to the model's helpers.
* `Verif/Lemmas/*.lean` – auxiliary lemmas.
* `Verif/Props/*.lean`  – the property theorems (with a non-vacuity `example` beside each),
  and, where the code violates a property, the negation with a concrete witness.

## Modelling conventions

* `Real` (double) is modelled by an arbitrary commutative ring / field (exact arithmetic).
  No theorem speaks about rounding, NaN or overflow of `double`.
* `int`, `size_t` are `Int`/`Nat` (no overflow).
* C arrays are `List`s with *checked* access: an out-of-bounds read or write makes the model
  function return `none`.  So `f x = some y` in a theorem also states that no access was out of bounds.
* Loops are folds / structural recursion in source order.
* Mutation through pointers/references becomes returning the new value.

## Plan per property

| id | what is modelled | how it is proved |
|----|------------------|------------------|
| C01 | status-code pass and equation numbering loops of `SAM::initSystemEquations` | induction over the status array with counter invariants |
| C02 | constraint validation loop of the same function | induction over constraint index |
| C03 | reaction index assignment | induction, counter invariant |
| C04 | `madof` accumulation, `getNodeAndLocalDof` | induction over nodes |
| C05 | `getElmEqns`, `assembleRHS`, `assembleSystem(vec)` | updates list; sum over updates = T^T F |
| C06 | `assemDense`, `assemSparse` loops | list of updates, pointwise sum = T^T K T |
| C07 | `expandVector`, `expandSolution` | direct from C01/C02 invariants |
| C08 | composition of the above | algebra from C05–C07 |
| C09 | fold of element assembly | permutation invariance of sums |
| C10 | as C06 | symmetry of T^T K T |
| C11 | `SparseMatrix` storage states | refinement to (r,c) -> value |
| C12 | `getDofCouplings` | every update's index pair is in the pattern |
| C13 | dense/sparse/diag assembly | common update list |
| C14 | `multiply`, `add` | refinement |
| C15 | all of the above with checked access | `isSome` theorems |
| C16 | `MPCLess`, `operator<`, `std::set` insert | order axioms, insertion invariant |
| C17 | `MPC::addMaster`, `merge`, `removeMaster` | induction |
| C18 | `resolveMPCchain`, recursive resolve lambda | structural recursion over the (acyclic) chain |
| C19 | `BC`, `fix`, status-code product | commutativity/idempotence |
| C20 | `dot`, `normInf` | fold lemmas |
| C21 | `renumberNodes`, `utl::renumber` | sorted map invariants |
| C22 | `injectNodeVec`, `extractNodeVec` ... | pointwise store/load |
| C23 | `ThreadGroups::calcGroups` etc. | partition by induction |
| C24 | same | separation invariant |
| C25 | `TimeStep` state machine | invariants over operation sequences |
| C26 | `TimeStep::cutback` | same |
| C27 | `serialize`/`deSerialize` | round trip, bisimulation |
| C28 | `BDF` coefficients | polynomial identities over any field |
| C29 | Newmark predictor / corrector | algebraic invariants by induction over corrections |
| C30 | `NewmarkMats`, `HHTMats`, `BDFMats` | algebra |
| C31 | `pushSolution` | index arithmetic |
| C32 | `solveStep`, `checkConvergence` | decision logic, fuel-free termination measure |
| C33 | `lineSearch` | telescoping sum |
| C34 | `parseIntegers` | round trip over well formed strings |
| C35 | `getDigits`, `getDirs` | digits recursion |
| C36 | `Lagrange1D::eval`, `computeBasis` | Mathlib Lagrange/polynomials |
| C37 | `generateFEMTopology` of Lagrange patches | index arithmetic |
| C38 | `assembleReactions`, `getNodalReactions` | sum over updates |
| C39 | `SAM::assembleSystem(K,rhs,eK,iel,reactions)` | sum over constrained DOFs; counterexample for overwriting (F3) |
| C40 | rhs-only branch of `AlgEqSystem::assemble`, `SAM::assembleSystem(rhs,eK,iel)` | both reduce to the same update list |
| C41 | `assembleSystem(rhs,nS,inod)`, `(rhs,S,dof)`, `addToRHS` | virtual work with the constrained shape function of every equation |
| C42 | `getSolVec`, `expandVector` | inverse maps from the numbering bijection |
| C43 | `applyDirichlet` | induction over DOFs |
| C44 | `TimeStep::increment` with step tables | invariant "next end not passed" over runs |
| C45 | `TimeStep::operator=` | bisimulation of copy and original |
| C46 | `NonLinSIM::solveStep`, `NewmarkSIM::solveStep` | ghost list of increments, induction over iterations |
| C47 | `saveSolution`, `restoreSolution` | map lemmas |
| C48 | `find_closest`, `merge`, `interleave`, `gather` | induction |
| C49 | `parseKnots` gradings | geometric sums, polynomial identities |
| C50 | `addMPC`, `add2PC`, `add3PC`, `addPeriodicity`, rigid / nodal / local couplings, `prescribe` | semantics of the constraint set before and after |
| C51 | `SAMpatch::init` pipeline | tables represent the patch model; composition with C01–C07 |
| C52 | `getReaction`, `haveReaction`, `normReact` | sums over node sets |
| C53 | `getEquations` | membership characterisation |
| C54 | multi-coloured element groups of unstructured patches | invariant of the colouring loop |
| C55 | `createMNPC` of spline patches | B-spline support (spec `Spec/BSpline`) |
| C56 | boundary nodes/elements, corners of structured patches | index arithmetic |
| C57 | `connectPatch`, `connectBasis` | the pairing is the geometric matching, bijective |
| C58 | explicit Runge–Kutta drivers, plain and embedded | stage induction; order conditions from Taylor expansions of analytic vector fields; induction over cut-backs |
| C59 | linear multistep drivers (Adams–Bashforth/–Moulton) | invariant of the load history over the time loop; moment conditions |
| C61 | coordinate mapping (`Model/Mapping.lean`) on real matrices | chain rule for Fréchet derivatives (`Lemmas/Mapping.lean`), inverse function theorem for the existence of the functions spoken of, C60 for the matrix operations |
| C62 | mixed elements (`Model/MxElement.lean`) | invariants of the loops over the bases, C60 and C61 for each basis; quotient rule and Jacobi's formula (`Props/Piola.lean`) for the Piola mapping |
| C63 | flags of non-zero equations, `endAssembly`, sums (`Model/SysMat.lean`) | the flags as a second state beside the storage; invariant over the element loop against `ActsOn`; generic loop lemma for `endAssembly`, instantiated for dense and sparse storage |
| C64 | integration rules and element loops over spline patches (`Model/Quadrature.lean`) | moments of the tables evaluated by the kernel in rationals, error bound for rounding to double; exactness on one span by change of variables, sum over spans and permutation of elements; cache invariant for each policy |
| C65 | Legendre polynomials, rules of Gauss and Lobatto, derivative matrix (`Model/Legendre.lean`) | recurrences from the formula of Rodrigues; Christoffel–Darboux kernel gives real simple roots, weights and discrete orthogonality; the eigenvalue solver is a parameter specified by the characteristic polynomial; logarithmic derivative for the accuracy of the iteration |
| C66 | processes as trees of sends and receives (`Model/Mpi.lean`), equation numbering of all ranks (`Model/DomainNumbers.lean`, `Model/DomainPart.lean`) | one complete execution is constructed by induction over the ranks and connections; a diamond lemma makes every other execution end in the same state, for sends that wait and for sends that do not; the result is compared with the equivalence closure of the links |
| C67 | visiting order of connections, subdomains (`Model/DomainGeom.lean`) with the wrap-around of `size_t` | the visiting order is the inverse of the matching of C57, both lists of pairs are permutations of each other; invariant of the offsets in each direction |
| C68 | the tensor classes (`Model/Tensor.lean`), exact real arithmetic | every storage form is that of a Mathlib matrix; componentwise identities, quaternions and Rodrigues' formula, the cosine formula with the discriminant from the spectral theorem, invariant of the Jacobi rotations |
| C69 | accumulation of element and global norms (`Model/Norms.lean`); what an integrand adds is a parameter | invariant of the assembly loop over groups; sums regrouped by element |
| C70 | selection of elements and the decision to refine (`Model/Adaptive.lean`), errors in any ordered field; mesh refinement, mapping of errors and solution are parameters | unique sorted sequence, `takeWhile` on a sorted list is a selection, induction over the loops |
| C71 | the closed-form functions of time and space (`Model/Functions.lean`) over ℝ; parsing, expression and field functions not modelled | spec of the binary search by an invariant, `HasDerivAt` for each class (locally constant conditions at regular points), induction over products |
| C72 | the weak operators of Apps/Utils (`Model/WeakOps.lean`) on top of the dense matrix model | every operator is described by the bilinear or linear form it adds (`AddsForm`, `AddsVec`, `AddsBlocks` in `Spec/WeakOps.lean`), an independent notion; loops by induction, sums by `Finset` algebra |
| C73 | the block element matrices (`Model/BlockMats.lean`): redim, redimOffDiag, finalize, getNewtonMatrix, getRHSVector | the numbering is a bijection between (block, node, component) and the degrees of freedom; invariant of the off-diagonal set-up; loop invariant "the blocks visited so far are in place" for the insertion; refuted by examples where the code is wrong (F117–F119) |
| C74 | both versions of the L2-projection (`Model/Projection.lean`): integration at the points, assembly, completion of the diagonal, arrangement of the results, splitting, corner values, order of the points | the assembled matrix and vectors are shown to be the bilinear and linear forms of the scalar product (additive loop invariant); a zero diagonal entry means a zero row because weights are not negative; orthogonality gives minimality by completing the square; the solver is any function that returns nothing but solutions |
| C75 | the driver with its loop, exporter levels, restart file item by item and restart (`Model/Driver.lean`); the simulator is a parameter | induction over the steps with the exporter and restart levels as functions of the step number; a restart file cut off at any item and written again from an earlier level is shown to become complete; states restored from it are related to the original ones by a relation the driver cannot see through, which is then constructed for the time stepping of C25-C27 |
| C76 | the adaptive loop with its prediction and forward steps, mesh adaptation, restart file with basis levels (`Model/DriverTS.lean`); the simulator is a parameter, the clock is first abstract, then `TimeStep` with a step table | an invariant over the log of events (age of the solution, clock position, mesh shown, restart file), kept by every stage of the loop; `TimeStep::reset` on a step table restores the canonical clock at each step |
| C77 | the staggered loop, relaxation, Aitken factor and default check over two arbitrary simulators, with a log of what happens (`Model/Coupled.lean`); exact arithmetic, 0/0 ends the run | one invariant of the loop about the whole log (order, truth, continuity), from which the claims about success, failure and relaxation follow; the iterates by induction over the iterations; Aitken for affine problems by exact computation along the error direction |
| C78 | the caches of a patch as a machine: shared quadratures, values, policy, operations init/clear/getVals/setIntegrand/changeNumThreads (`Model/BasisCache.lean`); evaluation is an unknown function; access outside an array ends the run | grid order of the points against the index formulas; one invariant of all caches kept by every operation; induction over the history |
| C79 | the text written by `createG2` as lists of control points, the calls made by `createTopology` and their effect on a process, the named sets (`Model/PatchGen.lean`); the number format is a function on coordinates | a patch as a linear map of the unit cube; numbering `1+(k*ny+j)*nx+i` bijective; coinciding sides ↔ neighbours by comparing corner points; the calls are without repetition and are exactly the connections of the specification; sets by membership of each loop |
| C80 | the cells with the loops over levels and cells in the order of the code, the inside-outside tests, the points, the set-up of a patch with fixed nodes and interfaces (`Model/Immersed.lean`); square root and `hypot` are functions | quadtree by recursion, compared as a permutation; tiling and exactness by induction over the tree; holes as distances from a segment (`Lemmas/Immersed`, `Props/Immersed*.lean`); exceptions by example |
| C81 | the loop over the property codes of a patch, the recursive update of the coefficients with the running position, the constant terms, the loop over patches (`Model/Dirichlet.lean`); functions are parameters | the update writes the coefficients of the resolved constraints in place (invariant on the tables, the chains do not depend on constant terms); fields by uniqueness of the admissible field and C07 (`Lemmas/Dirichlet*.lean`, `Props/Dirichlet.lean`) |
| C82 | the loop that numbers internal and retained equations, the distribution of the entries, condensation column by column, recovery, the block loops of the transformation, points and superelement patches (`Model/Supel.lean`); the solver is a parameter | a relation between the running equation number and the two lists of equations (induction), refinement of the sub-matrices through the abstract sparse matrix of C14, block algebra over `Matrix`; transformation: value functions for the loops, then `Matrix` with a block-diagonal matrix |
| C83 | the recursions, the derivative formulas with the tolerance, reading, the tensor-product evaluation through outer products, derivatives, vector and tensor functions, the Lagrange interpolator (`Model/Cheby.lean`) | Mathlib's Chebyshev polynomials as specification (recurrences, differential equation, values at the ends); index arithmetic of the outer products; `HasDerivAt` of the expansion along each coordinate; Mathlib's Lagrange interpolation as specification |
| C84 | the diagonal tables, the objects kept between calls, the one-degree-of-freedom element matrices (through the models of C30), assembly (through the models of the tables and of diagonal matrices), expansion, normalization, frequencies, restart (`Model/Modal.lean`) | invariant of the state over all histories of calls; the loop over modes adds to the equation of each mode; projection of the equation of motion on orthonormal modes (`Spec/Modal.lean`) |
| C85 | the search for the time level with the state it leaves, the loading of another level, the constructor with the flag for a fixed level (`Model/FieldFile.lean`) | the search upwards and downwards finds the first level not farther than its neighbour, by induction; exact condition for success; invariant over a sequence of evaluations (`Props/FieldFile.lean`) |
| C86 | the calls of `makePeriodic` made by `closeBoundaries` in 1D, 2D and 3D with their running master node, the merging of two nodes (`Model/Renumber.lean`), `collapseEdge`, and `collapseFace` with its running master (`Model/ClosePatch.lean`) | closed form of the calls; pairs without common nodes, then induction over the closed directions with the classes of identified points; stars of pairs for edges; groups of pairs whose first pair yields the smallest number for faces (`Spec/ClosePatch.lean`, `Props/ClosePatch.lean`, `Collapse.lean`, `CollapseEdge.lean`) |
| C87 | the visitor that copies a document and injects include files, with its stack of open elements and flags; the rounds over the levels; the prioritised tags and the loop over the others (`Model/XmlInput.lean`) | an inductive relation for the expansion with the number of levels (`Spec/XmlInput.lean`); structural induction over documents for one round; places of the elements sorted by rank (`Props/XmlInput.lean`, `XmlInputMore.lean`) |
| C88 | the simulators with their named fields and dependencies as lists, the nodal vectors as a store shared by pointers; registration, look-up, filling; the extraction loop with the integrand's vectors and interpolation fields (`Model/Depend.lean`) | histories of calls with the last registration, the first dependency and the last write (`Spec/Depend.lean`); induction over the history and over the dependencies; the gather of C22 for the values |
| C89 | lists of matrices (with link), vectors and scalars, scalar buffers per thread; init, setAssociatedVector, initialize, the branches of assemble for one and several matrices, finalize, add (`Model/AlgSys.lean`) | global shape functions and lift as for C05/C06, work and bilinear form of each element contribution (`Spec/AlgSys.lean`); induction over element matrices, vectors and the element loop, sums over buffers, permutation invariance of sums |
| C90 | block of visualization elements as lists of points, parameters, connectivity, external numbers, index map; unStructResize, setNode, endOfElm, merge, getElements, getElmIndex, getCenter, removeElement, connectivity of SphereBlock and CylinderBlock (`Model/ElmBlock.lean`) | the block stores a list of elements given by their nodes, corner points, order by number of nodes, node numbers of a sphere and a cylinder (`Spec/ElmBlock.lean`); induction over elements, points, connectivity and the loop of removal |
| C91 | Tensor4 and SymmTensor4 as class, dimensions and component vector; constructors, access, assignment, redim per class; accesses outside of the vector are failures (`Model/Tensor4.lean`) | components by indices, double contraction, trace (`Spec/Tensor4.lean`); positional number systems, loops of assignments to distinct positions |
| C92 | children of the input element as a list, vectors of amplitudes and frequencies that grow, scaling of modes, combination in each step, start time (`Model/EigenMode.lean`) | last value given for a mode, sum over the modes (`Spec/EigenMode.lean`); induction over children, modes and steps |
| C93 | force matrix by columns, map from nodes to columns, loop over the element nodes with running DOF offset, sequences of elements (`Model/GlbForce.lean`) | element force at all occurrences of a node, sum over elements (`Spec/GlbForce.lean`); induction over element nodes and elements, invariant on the map |
| C94 | list of weighted functions given by their virtual methods, loops with the component number (`Model/FuncSum.lean`) | weighted sum, largest element, filter by dimension (`Spec/FuncSum.lean`); induction over calls of add and over the functions |
| C95 | map of earlier points with an arbitrary sound search, index map, sequences of evaluations (`Model/NodeVecFun.lean`) | nearness in all coordinates, values of a node (`Spec/NodeVecFun.lean`); invariant on the map over all histories |
| C96 | main and extra streams, state of all streams, sequences of calls (`Model/LogFifo.lean`) | subscriptions, main stream and printing process as functions of the calls (`Spec/LogFifo.lean`); induction over the calls |
| C97 | callbacks by context, content of the pipe, polling with a buffer of 2048 bytes, sequences of actions (`Model/LogFifo.lean`) | first registration (`Spec/LogFifo.lean`); induction over the actions |
| C98 | list of nodal coordinates, loop with running pointer over the displacements, sequences of updates (`Model/LagNodes.lean`) | movement of a node by an update (`Spec/LagNodes.lean`); induction over nodes and updates |
| C60 | dense matrix class (`Model/Matrix.lean`), without BLAS | representation relation to `Matrix (Fin r) (Fin c)`; loops as lists of modifications |

## Trusted base

* Lean 4.33.0 kernel.  Mathlib is used for statements about sums, fields, polynomials and lists.
* Axioms: every theorem depends on at most `propext`, `Classical.choice` and `Quot.sound`
  (Lean's standard ones; checked by `vcheck`/`#print axioms`).  No axiom is declared, no
  compiled evaluation is used; concrete counterexamples are evaluated by the kernel.
* The reading of `/repo`: each model definition cites file and lines.  That the definition says
  what the C++ says is *not* machine checked; it is the main thing a reviewer has to trust.
* The conventions above (exact arithmetic, unbounded integers, checked arrays, folds for loops).

### What is modelled

| source | modelled functions | model file |
|--------|--------------------|------------|
| LinAlg/SAM.C | initSystemEquations, getElmNodes/Eqns, getNodeEqns/DOFs, getEquation(s), getUniqueEqns, getDofCouplings, getNodeAndLocalDof, getDofVal, assembleRHS, all assembleSystem variants, addToRHS, assembleReactions, getNodalReactions, expandVector/Solution, getSolVec, applyDirichlet, dot, norm2, normL2, normInf, normReact, haveReaction, getReaction | Sam, SamQuery, SamNorms, Assem |
| LinAlg/DenseMatrix.C | assemDense, assemble, multiply | Assem, AlgEq, Mat |
| LinAlg/SparseMatrix.C | entry access in all storage states, resize/init/redim, assemSparse, assemble, preAssemble, initAssembly, optimiseRows/Cols, add, multiply, augment, getColumn | Sparse, Assem |
| LinAlg/DiagMatrix.C | assemble, multiply | Diag |
| ASM/AlgEqSystem.C | element loop: matrix + vector + reactions, rhs only | AlgEq |
| ASM/SAMpatch.C | init, initNodeDofs, initElementConn, initConstraintEqs | SamPatch |
| Utility/MPC.C, MPCLess.h | comparison, masters, merge, shift | Mpc |
| ASM/ASMbase.C | BC, fix, isFixed, prescribe, all MPC couplings, chain resolution (map version), renumbering, mergeNodes, node/element vector extraction and injection | Patch, Mpc, Renumber, NodeVec |
| ASM/ASMmxBase.C | extractNodeVecMx, injectNodeVecMx | NodeVec |
| ASM/ASMs1D/2D/3D.C, ...Lag.C, ASMs2DTri.C | generateFEMTopology/createMNPC (topology part), boundary nodes, edges, corners, boundary elements, connectPatch | Topology |
| Utility/ThreadGroups.C and callers | all grouping functions | ThreadGroups |
| ASM/ASMu2DLag.C, ASM/LR/ASMLRSpline.C | colouring | Colouring |
| ASM/Lagrange.C, LagrangeInterpolator.C | eval, computeBasis, interpolation | LagrangeBasis |
| SIM/TimeStep.C | increment, cutback, finished, reset, serialize, deSerialize, operator= | TimeStep |
| SIM/NonLinSIM.C, NewmarkSIM.C, NewmarkNLSIM.C, HHTSIM.C, GenAlphaSIM.C | solveStep, checkConvergence, lineSearch, updateConfiguration, predictStep, correctStep | NonLin, Newmark |
| ASM/NewmarkMats.C, HHTMats.C, BDFMats.C | getNewtonMatrix, getRHSVector | Newmark, Bdf |
| Utility/BDF.C | coefficients, advanceStep, extrapolate | Bdf |
| Apps/Utils/SIMExplicitRK.h, SIMExplicitRKE.h, TimeIntUtils.C | tableaux, solveRK, embedded solveStep, get, Order | RungeKutta |
| Apps/Utils/SIMExplicitLMM.h, SIMImplicitLMM.h | solveStep, advanceStep, destructor; the nonlinear solver is abstract | Multistep |
| LinAlg/matrix.h | vector and matrix classes without BLAS, strided BLAS reductions | Matrix |
| Utility/CoordinateMapping.C, Vec3.h (normalize, cross) | all functions | Mapping |
| ASM/FiniteElement.C | `MxFiniteElement::Jacobian` (both), `Hessian`, `piolaMapping`, `piolaBasis`, `piolaGradient` | MxElement |
| LinAlg/SystemMatrix.C | initNonZeroEqs, flagNonZeroEq(s), isZero, endAssembly, SystemMatrix::add for dense, diagonal and sparse storage | SysMat |
| Utility/Legendre.C | all functions; `solveEigNon` is a parameter | Legendre |
| Utility/GaussQuadrature.C, ASM/ASMbase.C (getNoGaussPt), ASMs1D/2D/3D.C | tables, point parameters, element loop of `integrate` (interior), parametric length/area/volume, basis function caches. Not modelled: evaluation of the splines (GoTools), reduced points, element ages | Quadrature |
| ASM/DomainDecomposition.C, LinAlg/ProcessAdm.C | calcGlobalEqNumbers for one block, calcGlobalEqNumbersPart; blocking send and receive, broadcast as sends of the root. Not modelled: several blocks, calcGlobalNodeNumbers, sanityCheckCorners, graph partitioning | Mpi, DomainNumbers, DomainPart |
| ASM/DomainDecomposition.C | OrientIterator for structured patches, calcSubdomains | DomainGeom |
| Utility/Tensor.C, Tensor.h | Tensor, SymmTensor: constructors, assignment, arithmetic, invariants, rotations, principal values and directions (not the LAPACK version) | Tensor |
| ASM/GlbNorm.C; SIM/SIMbase.C solutionNorms; ASM/IntegrandBase.C | sums of norms, final operations, boundary terms, forces (not MPI, extraction functions) | Norms |
| SIM/AdaptiveSetup.C, SIMgeneric.C, AdaptiveSIM.C; Apps/Utils/SIMSolverAdap.h | calcRefinement, errorLimits, extremes, getReferenceNorm, adaptMesh, solveProblem | Adaptive |
| Utility/Functions.C, Functions.h, Function.h; ASMbase.C:1207-1270 | LinearFunc (table reading, search, value, derivative), LinVecFunc, time functions, space functions with first and second derivatives, isZero, isConstant, gradient, hessian, prescribed coefficients (scalar functions) | text parsing, expression/Chebyshev/field/space-Dirac functions, vector functions in updateDirichlet |
| Apps/Utils/EqualOrderOperators.C, CompatibleOperators.C | all operators on matrices and vectors, in exact field arithmetic; not modelled: CompatibleOperators::Weak::ItgConstraint and Source without a vector, the status values of the matrix operations (the code drops them too) |
| src/ASM/BlockElmMats.C, .h | all functions; arithmetic in a ring, debug output left out, undefined accesses are `none` | C73 |
| src/ASM/GlbL2projector.C, assembleL2matrices in ASMs2Drecovery.C and ASMs3Drecovery.C, SparseMatrix::preAssemble(MMNPC,nel), SparseMatrix::assemble(eM,meq), StdVector::assemble, SystemMatrix::solve(b,x) | the basis function values, weights and function values at the points are inputs, the equation solver is a parameter; elements one after the other; not the projection in LR-spline and discontinuous cases | C74 |
| Apps/Utils/SIMSolver.h, DataExporter::dumpTimeLevel, HDF5Restart.C | the simulator's operations are arbitrary functions, saving does not change it; files are lists of what was written; HDF5 operations reach the file in order; one process; not modelled: messages, VTF blocks, controller file, contents of the result file |
| Apps/Utils/SIMSolverTS.h (solveProblem, serialize), SIMinput::restartBasis | the simulator's operations (solving, adaptation, storing and restoring) are arbitrary functions; parsing, printing and the result exporter are left out |
| Apps/Utils/SIMCoupledSI.h | the two simulators and the virtual methods are arbitrary functions of a common state; vectors of a fixed size over an ordered field; parsing and printing left out |
| src/ASM/BasisFunctionCache.{h,C}, the caches in ASMs2D.C, ASMs3D.C, ASMs2DLag.C, ASMs3DLag.C, ASMs2DmxLag.C | evaluation of the functions (GoTools, Lagrange) is an unknown function of basis, order and point, and computeBasisGrid lists the points with the first direction fastest (assumption); weights left out; values are returned by value; getGridParameters is taken to list all element boundaries; the LR-spline caches are not modelled |
| src/SIM/MultiPatchModelGenerator.C, SIMbase::getLocalPatchIndex, the connection calls of SIM1D/2D/3D | non-rational patches; knot vectors are always those of a linear element and the file header is left out; exact field arithmetic (printing is a parameter, `C79_printed_*`); whether two patches can be joined is an unknown predicate of the simulator; subdivision, `refine` and the XML parsing are not modelled; one basis |
| src/ASM/ImmersedBoundaries.C (2D), IBGeometries.C (`Alpha`), ASMs2DIB.C (`addHole`, `setGeometry`, `generateFEMTopology`, `isIntersected`, `hasContribution`) | plotting of cells and tesselation, the 3D version (it is not implemented in the code), and the integration loops over the points are left out; exact field arithmetic; a Gauss rule is a list |
| src/ASM/SAMpatch.C (`updateConstraintEqs`), ASMbase.C (`updateDirichlet`), SIMbase.C (`updateDirichlet`) | the projection of functions onto edges and faces (ASMs2D/ASMs3D) and local node maps are left out; exact field arithmetic; constraints are identified by patch and slave DOF |
| src/LinAlg/SparseMatrix.C (`split`), src/ASM/AlgEqSystem.C (`staticCondensation`, `recoverInternals`), src/LinAlg/MatVec.C (`transform`), src/ASM/ASMsupel.C (`transform`), src/SIM/SIMsupel.C (`recoverInternalDOFs`) | splitting, condensation, recovery, transformation to global axes | the solver (parameter), writing and reading of the recovery file, parsing of superelements, eccentric nodes |
| src/Utility/Chebyshev.C, src/Utility/LagrangeInterpolator.C | all functions | parsing of the text file (a list of numbers); NaN of an empty domain |
| src/SIM/SIMmodal.C, src/SIM/SIMbase.C (`Mode`, `systemModes`) | expansion, assembly of the modal system, saving and restoring, normalization, damping, frequencies | the eigenvalue solver, `swapSystem`, parsing, a change between dynamic and quasi-static calls |
| src/Utility/FieldFunctions.C (`FieldFuncHDF5`, `FieldFunction`) | choice of the time level, loading, evaluation at a time | reading of bases and coefficients, evaluation of the fields in space, tensor and gradient functions |
| src/ASM/ASMs{1D,2D,3D}.C (`closeBoundaries`, `collapseEdge`, `collapseFace`), ASMbase.C (`makePeriodic`) | pairs of nodes, merged numbers, constraints instead of common numbers when the unknowns are not all coupled | comparison of coordinates (a parameter), sizes of the bases (arguments), thread group directions, `ASMs2DC1::closeBoundaries` |
| src/SIM/XMLInputBase.C | all, on trees of elements with a leading text | reading of XML text (tinyxml2), comments and further text, messages |
| src/SIM/SIMdependency.[hC] | all, for patches with one basis | debug output, evaluation of the interpolation fields |
| src/ASM/AlgEqSystem.[hC], ElmMats.h | init, setAssociatedVector, initialize, assemble, finalize, add, for dense matrices and any numbers of matrices, vectors, scalars, threads | isLinear extrapolation operator =, element activation; sparse and PETSc storage |
| src/Utility/ElementBlock.[hC] | unStructResize, setNode, endOfElm, merge, getElements, getElmIndex, getCenter, removeElement, node numbers of SphereBlock and CylinderBlock | structured resize, coordinates of the special blocks, transform, CubeBlock, PlaneBlock, parameter queries |
| src/Utility/Tensor4.[hC] | all constructors, component access, assignments, += | printing; wrap-around of the 16-bit index type |
| src/SIM/EigenModeSIM.[hC] | the input of modes, scaling, combination in solveStep | printing; the eigenvalue solution itself, called with nSol = 0 only (otherwise there are no modes and the displacement is zero) |
| src/ASM/GlbForceVec.[hC] | initNodeMap, initialize, assemble, getForce by node and by index, getTotalForce | element nodes and DOFs per node are parameters (SAM, modelled elsewhere); ReactionsOnly |
| src/SIM/FunctionSum.[hC] | add, getType, inDomain, initPatch, getValue, getScalarValue | DiracSum parser, ownership of the functions |
| src/SIM/NodeVecFunc.[hC], src/Utility/Vec3.h | getPointIndex, evaluate, isZero; equal, lessThan | messages; the tree search of the map is a parameter |
| src/Utility/LogStream.[hC] | write, operator<<, setters, addExtraLog, removeExtraLog, precision, flags | flush, good, assignment; failing streams |
| src/Utility/ControlFIFO.[hC] | registerCallback, poll | open and the file system; the XML parser is a parameter |
| src/ASM/ASMLagBase.[hC] | nodalField, getGeometricCenter, updateCoords, updateOrigin | copy constructor |
| SIM/SIMsolution.C | initSolution, pushSolution, save/restoreSolution | Solution |
| Utility/Utilities.C | parseIntegers, parseKnots (gradings), getDigits, getDirs, find_closest, findIndex, merge, interleave, gather, renumber | Utilities |

### What is not modelled

Linear solvers and LAPACK/BLAS/SuperLU/PETSc calls (a "solution" is assumed to solve the system),
GoTools/LRSpline geometry kernels (only the knot vectors and control nets they hold), numerical
integration and the user-supplied integrands (element matrices are arbitrary), XML/HDF5/VTF input and
output, MPI beyond point-to-point messages (`Model/Mpi.lean` is the trusted semantics), OpenMP scheduling (only the static element groups), floating-point rounding, and all
applications built on top of the library.

## Findings: places where the code violates a property

Each finding marked *proved* has a theorem about the model with a concrete witness.

* F1 `SAM::getNodeAndLocalDof(eqno=true)` mixes 0- and 1-based positions – proved (C04).
* F2 `SAM::getDofVal` returns 0 for the last DOF – proved (C04).
* F3 `SAM::assembleSystem(...,reactions)` overwrites instead of accumulating with two or more constrained DOFs per element – proved (C39).
* F4 `SparseMatrix::multiply` treats a compressed UMFPACK matrix as row-compressed – proved (C14).
* F5 `SparseMatrix::dump` of row-compressed matrices prints `A[i-1]`.
* F6 `SparseMatrix::add` assumes that the other matrix has this solver's format – proved (C14).
* F7 The column version of `assemSparse` ignores the constraint weights.
* F8 `SparseMatrix::assemble(eM,meq)` loops over `eM.rows()` rather than `meq.size()`.
* F9 The Matrix Market dump of non-square dense matrices swaps its loops.
* F10 `utl::parseIntegers("1:3,5")` gives a spurious 0 – proved (C34).
* F11 `ASMbase::addMPC` dereferences an erased iterator when overriding – proved (C50).
* F12 `SAMpatch::updateConstraintEqs`: a prescribed value that returns to exactly zero keeps the old total (`C81_back_to_zero`); a constraint with masters and a nonzero constant term subtracts the whole previous slave value, so that the masters' part is lost (`C81_constant_and_masters`; `C81_attained` states the exact condition).
* F13 `DiagMatrix::solve` does not advance the rhs pointer at a zero pivot; cross terms of repeated DOFs are ignored (C13 excludes them).
* F14 `SAM::getEquations` returns all equations of a node that has fewer DOFs than asked for – proved (C53).
* F15 `utl::gather` checks only the first component of a block – proved (C48).
* F16 `SystemMatrix::add` silently ignores a matrix whose non-zero flags are not set.
* F17 Second step of variable-step BDF2 uses constant-step coefficients – proved (C28).
* F18 `TimeStep::operator=` resets the position in the step table – proved (C45).
* F19 `TimeStep::reset` starts from 0 rather than the start time – proved (C27).
* F20 Convergence history is held in static variables shared by all solvers – proved (C32).
* F21 Line search may report another step length than applied – proved (C33).
* F22 `HHTSIM::correctStep` with convergence at iteration 0 – proved (C29).
* F23 `NewmarkNLSIM/HHTSIM::deSerialize` fails if the force vectors were not present on output.
* F24 Counters are not reset in `SAMpatch::merge`, so reaction indices get holes – proved in part (C03).
* F25 Negative Rayleigh coefficients enter the tangent but not the residual – proved (C30).
* F26 Masters that are unresolved slaves are dropped, or the model rejected, depending on order – proved (C51).
* F27 Row-compressed preallocation without delayed locking locks an empty pattern – proved (C12).
* F28 `DiagMatrix::assemble` ignores the constants of the constraints.
* F29 `SparseMatrix::getColumn` reads the editable map even if compressed.
* F30 `AlgEqSystem::add` bounds one loop by the size of another array.
* F31 A cut-back makes the time stepping jump over the end of a series – proved (C44).
* F32 Restart loses the iteration counters – proved (C27).
* F33 Restart after a cut-back in table mode replays the original table – proved (C27).
* F34 Line search with zero initial energy yields NaN – proved (C33).
* F35 The norm is tested before the NaN check of the increment – proved (C32).
* F36 `saveSolution` keeps an existing entry – proved (C47).
* F37 The reference norm set to one for absolute tolerance carries over to later steps.
* F38 Centred grading assumes an interval starting at zero – proved (C49).
* F39 Fifth-order grading of a part of the interval – proved (C49).
* F40 `isFixed` for several components tests the first only – proved (C19).
* F41 `add2PC/add3PC` modify an existing constraint of the slave; periodicity twice gives a cyclic chain – proved (C50).
* F42 Chain resolution drops products of small coefficients – proved (C18).
* F43 `prescribe` takes digit zero as a component – proved (C50).
* F44 The constraint of a DOF fixed by another patch is ignored, yet substituted – proved (C51).
* F45 `injectNodalVec` index check off by one – proved (C22).
* F46 Renumbering in place breaks the order of the constraint set – proved (C21).
* F47 `injectNodeVecMx` does not advance between bases – proved (C22).
* F48 `mergeNodes` renumbers direct neighbours only – proved (C21).
* F49 `dot`/`normL2` and `normInf`/`getEquations` interpret types differently – proved (C20).
* F50 `normInf` by type does not check the vector length – proved (C20).
* F51 `normL2(x,'A')` with classified DOFs is zero.
* F52 Rigid face coupling registers face thread groups without direction – proved (C23).
* F53 Structured thread groups ignore constraints of faces adjoining a rigid coupling.
* F54 Triangles without direction get doubled element numbers – proved (C23).
* F55 Recomputing thread groups appends; no direction does not partition – proved (C23).
* F56 One-noded elements on one node share a colour – proved (C54).
* F57 The colouring ignores masters outside the patch – proved (C54).
* F58 `ASMs3D::connectPatch` maps the face of a swapped volume twice – proved (C57).
* F59 `ASMs2D::getBoundaryNodes` ignores the swap flag – proved (C56).
* F60 `ASMs3Dmx(Lag)::connectPatch` tests the wrong face index for the neighbour's swap.
* F61 `ASMs2D::connectBasis` with several layers reverses across the layers, too – proved (C57).
* F63 `SIMImplicitLMM` frees a load vector twice if destroyed after a started but not completed step – proved (C59).
* F64 `SIMExplicitRK` with a reused matrix never assembles it after a restart (step number not 1) – proved (C58).
* F65 `SIMExplicitRKE` with tolerance ≥ 1 has no error control – proved (C58).
* F66 `SIMExplicitLMM` of order ≥ 2 dereferences a null pointer after a restart – proved (C59).
* F67 `SIMImplicitLMM` with initial conditions uses the rates of the wrong time levels in the first step – proved (C59).
* F68 `matrix::inverse` uses −999 as error value: a regular matrix with that determinant is not inverted although a nonzero determinant is returned – proved (C60).
* F69 `matrix::expandRows` never ends for a matrix without rows and with at least two columns – proved (C60).
* F70 `matrix::trace` adds off-diagonal entries if there are more columns than rows – proved (C60).
* F71 BLAS versions of `dot`, `norm2`, `asum` with an increment use `size/inc` entries: the last entry is missed when the increment does not divide the size, and an entry behind the end is read when the offset is not below the increment – proved (C60). `normInf` ignores the offset in the count.
* F72 `utl::Hessian2` transforms third derivatives as if the Jacobian were constant: for `x = u + u³` and the function `F(x) = x` it returns 6 instead of 0 at `u = 0` – proved (C61).
* F73 `utl::JacobianGradient` adds to the matrices it is given if they have the right size already: a second call with the same argument returns the sum of both results – proved (C61).
* F74 `utl::detJacGradient` returns zero in one dimension – proved (C61).
* F75 `utl::getGmat` scales entry `(i,j)` by `2^d/(du_i du_j)`: the extents belong to the parameter directions but are indexed by the physical ones, and the factor is 2 in 1D and 8 in 3D instead of 4; it is the metric of the element coordinates only for axis-parallel or square elements in the plane (formula proved in `C61_gmat`, square case in `C61_gmat_square`).
* F76 On edges the callers pass `fe.detJxW` to `piolaMapping` after the boundary Jacobian has set it to the dilation of the curve, not to the determinant (ASMs2Dmx.C:781-786): the mapped functions there are scaled by `det J/dS` (`C62_piola_factor` gives the factor; the caller is not modelled).
* F77 A system matrix filled without flagging (constructed from a dense `Matrix`, through `operator()`, or by `augment`) counts as zero (`isZero()`), and `add(B)` returns true without adding it (SystemMatrix.h:231, DenseMatrix.C:480, SparseMatrix.C:529; `C63_unflagged_counterexample`).
* F78 `DenseMatrix::augment` shrinks the matrix if `max(r0+rows, c0+cols)` is less than its current size (DenseMatrix.C:412-428); the sparse version does not (`C14_augment`).
* F79 `DenseMatrix::dump` in Matrix Market format swaps the loop bounds of rows and columns for non-square matrices (DenseMatrix.C:108-110). Not modelled.
* F80 `DiagMatrix::solve` does not advance in the right-hand side at a zero pivot: the remaining pivots divide the wrong components; it returns false (DiagMatrix.C:208-213; `C63_diag_singular`).
* F81 `DenseMatrix::load` cannot read a flat file written with a label: `strstr(header,"=")` points to the equals sign itself, so reading the dimensions fails (DenseMatrix.C:186-188). Not modelled.
* F82 With a preallocated sparsity pattern, the pivot `endAssembly` wants to insert for an equation no element acts upon has no entry: an error is printed, the value is lost and the matrix stays singular (SparseMatrix.C:270-308, SystemMatrix.C:260-268; `C63_sparse_counterexample`).
* F83 `DenseMatrix::add(sigma,0)` addresses `rows` diagonal elements even if there are fewer columns (DenseMatrix.C:498).
* F84 The 3-point rule for triangles contains the point (0.5,0.5) twice and not (0.5,0), so it does not even integrate linear functions (TriangleQuadrature.C:24-28).
* F85 `Legendre::GL` with two points leaves the off-diagonal element `A(2,1)` zero: both points are in the origin and the weights infinite (Legendre.C:23-35; `C65_two_points_counterexample`). The three-point Lobatto rule, which starts from it, is right all the same (`C65_lobatto_small`).
* F86 The basis function caches of surfaces and volumes ignore the failure of `setupQuadrature`, so a number of points without a rule is not reported but leads to use of a null pointer (ASMs2D.C:3488-3498, ASMs3D.C:4012-4022). The one-dimensional code checks.
* F87 `BasisFunctionCache::init` returns early if it already holds values of sufficient derivative order; a later integrand with reduced integration gets no (or the former) reduced points (BasisFunctionCache.C:36-39). Not modelled.
* F88 `ASMs2DTri::evalParam` computes a wrong second parameter in the upper triangle (ASMs2DTri.C:106-122).
* F89 `ASMs2DTri::generateThreadGroups` without strip direction doubles the element numbers twice (ThreadGroups.C:45; see F54).
* F90 `if (nRecv =! lNodes.size())` in `DomainDecomposition::calcGlobalNodeNumbers` is an assignment: sizes of the boundaries are never compared, and an empty boundary is always an error.
* F91 `calcGlobalNodeNumbers` calls `getNodeDOFs(i)` with a zero-based index, so the reported maximum DOF is wrong.
* F92 `DomainDecomposition::setup` takes `lok = ok` before `calcGlobalNodeNumbers`; the `MPI_Allreduce` result of the old value overwrites the new one, so a failed node numbering is never reported.
* F93 A connection whose master patch is owned by a higher rank than the slave patch makes `calcGlobalEqNumbers` wait forever; nothing excludes it – proved (C66).
* F94 `calcSubdomains` without overlap subtracts a too large offset from the number of elements (5 elements in 4 parts) and throws an exception; with an overlap larger than the parts, elements are lost – proved (C67).
* F95 `OrientIterator` uses the stride of the slave's face for orientations 4–7: on faces with different numbers of nodes in the two directions the wrong nodes are joined across processes – proved (C67).
* F96 `SIMinput::getElmConnectivities` uses the visiting order for the slave's instead of the master's elements: for orientations 5 and 6 (not self-inverse) the neighbours are wrong even on square faces. Not modelled.
* F97 `ASMs1D::getElmConnectivities` reads outside of its arrays for a patch with one element; `getElmConnectivities` of splines treats elements behind a zero-length span as not connected, and the multi-patch version uses index −1 for zero-length elements at an interface. Not modelled.
* F98 `innerProd`/`ddot` of symmetric tensors counts each off-diagonal term once, so that `A:A` differs from the square of `L2norm` – proved (C68).
* F99 `SymmTensor::principal(p,sorted)` returns the deviator `s1` instead of the mean value for a hydrostatic tensor: zero for the unit tensor – proved (C68).
* F100 `SymmTensor::principal(p,pdir)` sweeps over the terms 12 and 23 only: pure shear in the plane 13 is returned unchanged with `true` – proved (C68).
* F101 `Tensor::rotVec` in two dimensions uses the formula of three dimensions for the angle – proved (C68).  In three dimensions a half turn has a zero rotation vector.
* F102 Tensor assignment: the component 33 of a plane tensor is lost when assigned to a three-dimensional symmetric tensor, and a full plane tensor assigned to a plane tensor with the component 33 is copied component by component although the layouts differ – proved (C68).
* F103 `Tensor::rotate(alpha,2)` rotates by `-alpha`, unlike `rotate(alpha,1)`, `rotate(alpha,3)` and `Tensor(0,alpha,0)` – proved (C68).
* F104 `rightCauchyGreen`, `leftCauchyGreen`, `outerProd` of a plane tensor with the component 33 store the term 12 in the component 33 – proved for the first (C68).
* F105 `GlbNorm::assemble`: an empty group of norms (a skipped projection) makes the first value of the next group get lost and shifts the others – proved (C69). Without stored element norms the buffer has more values than the groups and `myVals[k]` is read out of range.
* F106 `calcRefinement` compares with the pair (limit, 0): the element or function with index 0 is not marked if its error equals the limit. With one element and `maximum` 100 % nothing is marked and `error[-1]` is read; `dorfel` 100 % leaves out element 0 if it has the smallest error; 0 % reads `error[-1]` – proved (C70).
* F107 `SIMSolverAdap::solveProblem` returns 0 (success) also if `adaptMesh` failed (negative code or failed refinement) – proved (C70).
* F108 `GlbForceVec::initNodeMap` keeps column numbers of skipped (duplicate or illegal) nodes, so that later columns lie beyond the matrix (GlbForceVec.C:23-42). Proved as C93_skipped.
* F109 `Function::isConstant` answers true by default and `DiracFunc`, `StepFunc` do not override it: a prescribed step in time is reported as not time dependent – proved (C71).
* F110 `LinearFunc::isZero` is false for a table of zeros with scale 1 (both the table and the scale must vanish) – proved (C71).
* F111 `LinearRotZFunc::deriv` is zero in time although the function varies; `SpaceTimeFunc::dderiv` is zero in time-time; `SpaceTimeFunc::deriv` in time ignores a time dependent space factor (`Interpolate1D` with a ramp, rotations) – proved (C71).
* F112 The table reader moves the previous abscissa when the next is slightly smaller, which can break the order to the points before; rows with fewer than two numbers leave the point unset (Functions.C:180-206) – proved (C71).
* F113 `StepXY x0 y0` is announced as starting at -inf, but starts at -1 (Functions.C:774-779) – proved (C71).
* F114 `CompatibleOperators::Weak::Convection`, conservative and skew form: the terms for equal components are N ⊗ ∂N with a minus sign instead of ∂N ⊗ N, so the conservative matrix is wrong and the skew terms cancel (CompatibleOperators.C:64-66,71-75) – proved by example (C72).
* F115 `CompatibleOperators::Weak::Laplacian` updates block n instead of the block named by the index table, as Mass and Advection do (CompatibleOperators.C:107-109) – proved by example (C72).
* F116 `EqualOrderOperators::Residual::Advection` contracts the velocity with the columns of the gradient (`g[k-1]` is column k), so it adds (∇u)ᵀa instead of a·∇u, and with a positive sign unlike all other residuals – proved (C72).
* F117 `BlockElmMats::redimOffDiag` decides with `<` and `getNewtonMatrix` with `<=` whether only the blocks above the diagonal are stored: with three or more blocks and exactly all upper blocks the sizes of the off-diagonal blocks are those of other blocks (BlockElmMats.C:58,114) – proved by example (C73).
* F118 `BlockElmMats::redimOffDiag` accepts the index just past the last matrix and accesses it (BlockElmMats.C:53) – proved by example (C73).
* F119 `BlockElmMats::redim` called twice for a block counts its components twice in the basis; the element matrix is then written outside its bounds (BlockElmMats.C:43) – proved by example (C73).
* F120 `L2FuncIntegrand::evaluate` computes the dimensionless parameter as `u0 + g/(u1-u0)` instead of `(g-u0)/(u1-u0)` (GlbL2projector.C:157-158), so an explicit function is projected with values from wrong points unless the parameter domain begins at zero – proved as an equivalence (C74_parameter).
* F121 `assembleL2matrices` computes the index of the first point of an element with the number of points of the last direction for all directions (ASMs2Drecovery.C:237, ASMs3Drecovery.C:246); with a different order per direction in the discrete projection the values of other elements are used – proved by example (C74_points_counterexample).
* F122 With several threads the sparsity pattern is fixed before the completion of the diagonal, so a node in no element makes the second version fail (GlbL2projector.C:412-413) – proved by example (C74_threads_counterexample). `L2FuncIntegrand` also expands the grid by the number of space dimensions instead of parametric ones (a surface in space would read a third parameter that is not there); noticed only.
* F123 After a restart from a step which is not written to the result file, the exporter begins with the restarted step (or skips it) at the level of the last results, so levels written before are overwritten with the results of other steps (SIMSolver.h:284-290, DataExporter.C:98-121) – proved by example (C75_levels_counterexample).
* F124 `HDF5Restart::writeData` opens an existing file without truncating it and keeps existing data sets (HDF5Restart.C:53, 112), so a new simulation in the presence of the restart file of an earlier one does not save its own restart data, without any message – proved in general (C75_kept) and by example (C75_stale_counterexample).
* F125 `SIMSolver::restart` is documented to return a one-based level, zero meaning no restart, but returns the zero-based level, so zero also after a restart from the first level (SIMSolver.h:260-299); a failing `serialize` is ignored by `saveState` (SIMSolver.h:254).
* F126 `TimeStep::reset(j)` without a step table sets the step counter back but not the time, so after a mesh refinement the repeated steps of an adaptive simulation are at later times than their numbers say, and the simulation has fewer steps (`C76_counterexample_no_table`).
* F127 When the step limit is reached while predicting, `advanceStep` has increased the counter although the step was refused, and the results are saved under the number of the next step (`C76_counterexample_max_step`).
* F128 `lastRLev` is not updated when a refined mesh is accepted in a later prediction cycle, so restart levels point to an older mesh; with `max_prediction` zero it is set without any refinement, and restarting fails (`C76_counterexample_basis`, `C76_counterexample_no_cycles`).
* F129 `SIMinput::restartBasis` ignores the stored mesh of the first time level (`C76_counterexample_basis`).
* F130 `predict_steps` zero gives an endless loop (`C76_counterexample_no_steps`); if the simulator cannot advance its solution, the adaptive driver ignores this and returns zero (`C76_counterexample_advance`).
* F132 A fresh exporter with several writers, one of them on an empty file, continues at a level that depends on the order of the writers (`C75_writers_counterexample`).
* F133 `SIMCoupledSI::solveStep` returns true also if the staggered iterations have not converged; a maximum of `max` means `max+1` iterations, and a negative one means none, with success (`C77_counterexample_unconverged`).
* F134 Aitken relaxation: iteration zero is not relaxed but its factor is taken to be `omega0`, so the first Aitken factor is `omega0` times the right one (`C77_aitken`); an unchanged residual gives 0/0 (`C77_counterexample_aitken`).
* F135 The solution is relaxed also after the convergence check has passed, so what is post-processed and saved is not the converged solution (`C77_counterexample_relaxed`).
* F136 Lagrange patches: the projection initialises the cache for first derivatives but evaluates with the flags of the integrand of the last assembly (a dangling pointer if that is gone, a null pointer if there was none); after an integrand without derivatives the Jacobian of the projection is empty, and with the full cache later integrands never get derivatives (`C78_lost_derivatives`).
* F137 The quadratures are set up by the first integrand only: with every policy but PRE_CACHE an integrand that needs reduced integration and comes later gets none, silently, and one that does not want it gets it (`C78_stale_reduced`).
* F138 The result of setupQuadrature is ignored: a Gauss rule that is not in the table gives an initialised cache without values (`C78_missing_rule`).
* F139 Cached values at reduced points have first derivatives only, computed ones have as many as the main quadrature (`C78_reduced_order`).
* F140 Clearing the cache of basis 1 resets the quadrature all bases share; initialising another basis does not set it up again if that one still has values (`C78_shared_quadrature`).
* F141 Without caching, changeNumThreads on a cache not yet initialised (unstructured Lagrange patches make theirs early) makes init(0) return early, without a quadrature (`C78_threads_first`).
* F142 The sets Edge1–Edge12 and Frame of 3D models use another edge numbering (1–4 along y, 5–8 along z, 9–12 along x) than the patches (u, v, w): with more than one patch they name interior lines (`C79_frame_wrong`); the unit test records the wrong sets.
* F143 Coordinates are written with six significant digits: patches can degenerate for a corner far from the origin (`C79_printed_digits`).
* F144 The generator ignores X0.y and X0.z in 1D and X0.z in 2D (`C79_corner_ignored`).
* F145 A periodic direction with a single patch calls closeBoundaries on the pointer of a patch of another process, which is null (`C79_close_elsewhere`); parsePeriodic checks the pointer.
* F146 getLocalPatchIndex returns -1 for a patch above the global count; createTopologySets stores it in a size_t and inserts patch 2^64-1 (`C79_few_patches`).
* F147 Periodic sides remain in the boundary sets (`C79_sets_*`: the boundary set is defined by coinciding sides only).
* F148 `Intersected::hasContribution` takes index 0 for "no neighbour": the first element is not seen from its east and north neighbours (`C80_west_missed`); latent, since `alsoSW` is never set.
* F149 `isIntersected` compares the number of points with `nGauss²`: elements that are cut but keep at most that many points are not regarded as intersected (`C80_cut_missed`).
* F150 The wrapper `getQuadraturePoints` assigns `ok` for each element, so its status is that of the last one (`C80_status`, `C80_last_only`); elements of zero area make it false, which goes unnoticed for this reason.
* F151 A hole that touches no test point and contains no Gauss point is not seen, at any depth (`C80_hole_missed`).
* F152 The test points are displaced from the corners along the axes, also for elements that are turned or skew, where they may lie outside the element (`C80_turned`).
* F153 A hole added after a geometry function is silently ignored (`C80_function`).
* F154 `AlgEqSystem::staticCondensation` and `recoverInternals` lack the test `ip2 == neq2` that `SparseMatrix::split` has (AlgEqSystem.C:399, 554): if the last equation is internal, they read past the end of the list of retained equations (`C82_last_internal`, `C82_last_internal_recovery`). Retained DOFs are ordered by equation number, not in the order of the given nodes; `imat > A.size()` (AlgEqSystem.C:358) should be `>=`.
* F155 `utl::transform` does not check that the size is a multiple of the nodal one, and leaves the array if it is not; a nodal matrix without rows gives an endless loop (`C82_not_nodal`). `ASMsupel::transform` always uses blocks of three, whatever the number of DOFs per node.
* F156 `Chebyshev::eval2Der1` returns the second derivative at the end of the interval for all points closer to it than 1e-6, an error of up to 1e-6 times the third derivative (proved: C83_second_derivative states the exact value).
* F157 `Chebyshev::evalDer2` divides by `xi*xi-1` without the treatment of the ends that `eval2Der1` has: the derivative of the second kind is not a number at ±1 (C83_first_derivatives excludes the ends).
* F158 `ChebyshevVecFunc` sets the number of components to two when its first function does not depend on the third coordinate: with three functions the gradient and Hessian lack the third component while the value has it (example in Props/ChebyMore).
* F159 ... and with a single function, `evalGradient` dereferences a null pointer (C83_single_input_gradient).
* F160 `Mode::orthonormalize` divides the eigenvector by its modal mass instead of the square root of it: the modal mass becomes 1/s instead of 1 (proved: C84_orthonormalize).
* F161 `SIMmodal::assembleModalSystem` creates a damping matrix only if a Rayleigh coefficient is positive: the individual damping of modes (`Mode::computeDamping`) is ignored otherwise (proved: C84_individual_damping_ignored).
* F162 The modal system is assembled at `eigNo` while the modal solution is read at the place in the list: a subset of the modes is refused (proved: C84_subset_refused), modes in another order exchange their equations (example in Props/ModalMore).
* F163 With more than three solution vectors the modal residual takes the displacement from the third last vector but `NewmarkMats` velocity and acceleration from the second and third (example in Props/ModalMore).
* F164 `saveModes` does not save the damping: after a restart individual damping is lost (proved: C84_restart_damping_lost).
* F165 A negative eigenvalue is stored as a negative frequency, whose square enters the modal system as a positive stiffness (proved: C84_frequency).
* F166 `FieldFuncHDF5::findClosestLevel` never finds the last time level from below: at any time closer to the last level than to the last but one it returns -1 and the value is zero, also at the time of the last level itself; in the same way the first level is not found again from above (proved: C85_one_query, C85_last_level).
* F167 After such a failure the stored level is outside the file, and the next search at an earlier time returns a level that does not exist (proved: C85_last_level); if the first read fails the stored time is an uninitialized variable.
* F168 `VecFieldFunction::evaluate` copies `ncmp` values from the empty array that `getValues` returns when no level is found (FieldFunctions.C:443-448 and 517); not modelled.
* F169 A field function opened with a negative level is zero forever (proved: C85_not_loaded); the time of level 0 is taken as zero whatever the file says.
* F170 `ASMs2D::collapseEdge` merges each node with the first one, and `mergeNodes` renames only one node of its own patch: if a node of the edge other than the first two has a lower number (e.g. from a connection to another patch), earlier nodes keep another number and the edge is not collapsed into one node (`C86_collapse_edge_one`).
* F171 `ASMs3D::collapseFace` swaps faces 5 and 6 if the third direction is swapped, but not the edge, so their edges are refused, and edge 2 of face 5 is taken for a vertex (`C86_collapse_swapped`). Some edges that do not belong to the face are accepted as others because of the integer division (e.g. edge 1 of face 1 as a vertex).
* F172 `ASMs1D::closeBoundaries` always couples the unknowns 1, 2 and 3 (default argument of `makePeriodic`), so a common number is used only with three unknowns per node; it also ignores `master` for the master node (ASMs1D.C:489). In mixed patches the number of unknowns of a basis differs from that of the patch, so closing always adds constraints instead of common numbers.
* F173 A missing include file is no error, and `VisitEnter` returns false for it without having opened an element, while `VisitExit` is called anyway and closes the parent: if another include file exists, the elements behind the missing one are moved one level up (XMLInputBase.C:52-58 and 79-85; examples in `Props/XmlInputMore.lean`).
* F174 A missing include file at the top level in front of one that exists closes the root element, and the second one dereferences the null pointer `currElem` (XMLInputBase.C:57).
* F175 Only the first element with a prioritised tag has priority; further ones (e.g. a second `<geometry>`, or one injected from an include file) are parsed in the order of the file (XMLInputBase.C:180).
* F176 If the vector of a dependent field is empty, the vector of the integrand is emptied, but an interpolation field set for the patch or time step before stays (SIMdependency.C:147-151; C88_stale_object).
* F177 With two dependencies on fields of the same name in different simulators, getDependentField and getDependentPatch use the first, extractPatchDependencies extracts both, the last one counting (C88_duplicate_name). getDependentPatch gives no patch where the extraction uses the patch of the simulator itself.
* F178 The scalars of an element without matrices and vectors are not added to the system scalars: AlgEqSystem::assemble returns at once if the element has no matrices and vectors (AlgEqSystem.C:217, ElmMats::empty; C89_scalars_lost).
* F179 With a single matrix, setAssociatedVector has no effect on the assembly: the terms of the prescribed values always go to the first vector (AlgEqSystem.C:229-249; C89_single_link).
* F180 Merging blocks of visualization elements keeps the parameters of the first block only, and its old index map (ElementBlock.C:145-212; C90_merge_parameters).
* F181 removeElement in a block of mixed types removes the end mark of the preceding element instead of that of the removed one, which joins the two neighbours (ElementBlock.C:326-331; C90_remove_mixed).
* F182 unStructResize takes a block of mixed types for a block of one type if the number of entries is a multiple of the number of elements, e.g. for a line and a quadrilateral (example in Props/ElmBlockFill).
* F183 SymmTensor4: the constructors of the base class cannot use the redim of SymmTensor4, so the storage has dimension 9 (4 in 2D) instead of 6 (3); a vector with the 6x6 matrix representation is reported as too small and its components are looked up at wrong places (Tensor4.C:37-46, 99-114; C91_symm_vector).
* F184 Assigning a SymmTensor4 uses the redim of SymmTensor4: 81 values (16 in 2D) are written into a vector of 36 (9) (Tensor4.C:69-76; C91_symm_assign).
* F185 Assigning a number to a SymmTensor4 through a base reference sets wrong components (Tensor4.C:79-87; C91_symm_number).
* F186 Of the modes in a list `<modes frequency=..>`, only the one with the largest number gets the frequency (EigenModeSIM.C:69-74, `omega[imode-1]` instead of `omega[mode-1]`; C92_list_frequency).
* F187 Modes with negative amplitude are left out of the combination (EigenModeSIM.C:169-171; C92_negative).
* F188 If the simulation starts at a negative time, the start time is found anew in each step until it is not negative, so that the displacement is always that at the time increment (EigenModeSIM.C:163-166; C92_negative_start).
* F189 `NodeVecFunc` remembers points in a map whose keys are compared with tolerance 1e-4, while nodes are found with tolerance 1e-6: nodes nearer than 1e-4 get each other's values depending on earlier evaluations (NodeVecFunc.C:64-73; C95_mixed_up).
* F190 Nodes found by their coordinates are not mapped through the index map, so that the same node has another value with and without its index (NodeVecFunc.C:69-73; C95_not_mapped).
* F191 `ControlFIFO::poll` writes the terminating zero beyond its buffer of 2048 bytes if as many bytes are in the pipe (ControlFIFO.C:51-57; C97_overflow).
* F192 If two messages are sent before the pipe is polled, the second one is lost, since only the first root element is used (ControlFIFO.C:61-69; C97_two_messages, for a parser that accepts several root elements).
* F62 Swapping does not flip the orientation flag of edges 1–2 (faces 1–4).
