{"id": "C01", "title": "Equation numbering is a bijection onto 1..neq", "statement": "After SAM::initSystemEquations, the DOFs with status 1 or 2 carry pairwise distinct equation numbers that cover exactly 1..neq, all status-1 DOFs are numbered before all status-2 DOFs, each group in increasing DOF order, and no suppressed DOF gets a positive equation number.", "quantifier": "every status-code array of any length and every constraint table", "why_tests_cant": "A test fixes one small model; an off-by-one for a particular interleaving of status codes 0/1/2 would silently merge two unknowns.", "anchors": ["src/LinAlg/SAM.C: SAM::initSystemEquations", "src/LinAlg/SAM.h: SAM::getNoEquations"]}
{"id": "C02", "title": "Every constraint owns its slave DOF; malformed tables are rejected", "statement": "If initSystemEquations succeeds, every constraint equation refers to an in-range, suppressed slave DOF and only to in-range free master DOFs, and getEquation/getElmEqns return -i for a slave exactly when constraint i is the (last) one defining it; if any of these conditions is violated it returns false.", "quantifier": "every status-code array and every constraint table (mpmceq, mmceq)", "why_tests_cant": "The set of malformed tables is unbounded; a test tries a few.", "anchors": ["src/LinAlg/SAM.C: SAM::initSystemEquations"]}
{"id": "C03", "title": "Reaction-force slots are distinct and dense", "statement": "After initSystemEquations the suppressed DOFs own pairwise distinct reaction-force indices covering exactly 1..nspdof, so assembling reactions never mixes two DOFs and never writes outside the reaction vector. (First initialisation of the tables; a second call on the same object does not reset the count, see the counterexample theorem.)", "quantifier": "every status-code array", "why_tests_cant": "Needs all interleavings of suppressed and free DOFs.", "anchors": ["src/LinAlg/SAM.C: SAM::initSystemEquations, SAM::assembleReactions, SAM::getNodalReactions"]}
{"id": "C04", "title": "Nodes own contiguous, disjoint DOF ranges; DOF <-> (node, local dof) round trip", "statement": "The madof table built from per-node DOF counts assigns every DOF in 1..ndof to exactly one (node, local dof) pair; getNodeAndLocalDof inverts madof[node-1]+local-1 for every DOF number. (The reverse lookup by equation number and the single-value query violate their contracts; the counterexample theorems say how.)", "quantifier": "every list of per-node DOF counts (including nodes with zero DOFs) and every DOF", "why_tests_cant": "Nodes with zero DOFs and varying counts give unboundedly many layouts.", "anchors": ["src/ASM/SAMpatch.C: SAMpatch::initNodeDofs", "src/LinAlg/SAM.C: SAM::getNodeAndLocalDof"]}
{"id": "C05", "title": "Element vector assembly computes the constrained load T^T F", "statement": "SAM::assembleSystem(sysRHS,eS,iel) adds to every equation exactly the element-vector entries that act on it, directly or through constraint coefficients: sysRHS += T^T eS, where T is the DOF-to-equation transformation read off from the constraint equations.", "quantifier": "every element vector, every element topology (including repeated nodes), every constraint table and every right-hand side", "why_tests_cant": "Linear identity over all coefficient values and incidence patterns.", "anchors": ["src/LinAlg/SAM.C: SAM::assembleRHS, SAM::assembleSystem"]}
{"id": "C06", "title": "Element matrix assembly computes T^T K T and the load contribution -T^T K g", "statement": "SAM::assembleSystem(sysK,sysRHS,eK,iel) adds T^T eK T to the coefficient matrix and -T^T eK g to the right-hand side, with g the constant terms of the constraint equations.", "quantifier": "every element matrix (also unsymmetric), all incidence patterns, all constraint tables", "why_tests_cant": "The four code branches (free/free, free/slave, slave/free, slave/slave, prescribed) interact; only a general identity rules out a missed cross term.", "anchors": ["src/LinAlg/DenseMatrix.C: assemDense, DenseMatrix::assemble", "src/LinAlg/SparseMatrix.C: assemSparse"]}
{"id": "C07", "title": "Expanded solutions satisfy every boundary condition and every multi-point constraint", "statement": "SAM::expandSolution returns for every equation vector a DOF vector in which free DOFs carry their equation's value, suppressed DOFs are zero, and every constraint equation u_slave = c0 + sum(c_i u_master_i) holds exactly (with c0 scaled by scaleSD).", "quantifier": "every solution vector, status array and constraint table accepted by initSystemEquations", "why_tests_cant": "Universally quantified over constraint tables.", "anchors": ["src/LinAlg/SAM.C: SAM::expandVector, SAM::expandSolution"]}
{"id": "C08", "title": "Solving the assembled system solves the constrained discrete problem", "statement": "If x solves the assembled system, the expanded solution u satisfies all constraints and the residual F - K u (K, F the unconstrained element sums) does zero work on every admissible variation, i.e. T^T (F - K u) = 0.", "quantifier": "every mesh, element matrices/vectors and constraint set", "why_tests_cant": "End-to-end property of initSystemEquations+assemble+expand; needs all inputs.", "anchors": ["src/LinAlg/SAM.C", "src/LinAlg/DenseMatrix.C: assemDense", "src/LinAlg/SparseMatrix.C: assemSparse"]}
{"id": "C09", "title": "Assembly is independent of the element order", "statement": "The assembled matrix and right-hand side (exact arithmetic) do not depend on the order in which the elements are assembled.", "quantifier": "every list of element contributions and every permutation of it", "why_tests_cant": "n! orders.", "anchors": ["src/LinAlg/DenseMatrix.C: DenseMatrix::assemble", "src/LinAlg/SparseMatrix.C: SparseMatrix::assemble", "src/LinAlg/SAM.C: SAM::assembleSystem"]}
{"id": "C10", "title": "Symmetric element matrices give a symmetric system matrix", "statement": "If every element matrix is symmetric, the assembled system matrix is symmetric, in presence of any constraint equations.", "quantifier": "all symmetric element matrices, incidence patterns and constraints", "why_tests_cant": "Universal over incidence and coefficients; CG/Cholesky solvers rely on it.", "anchors": ["src/LinAlg/DenseMatrix.C: assemDense", "src/LinAlg/SparseMatrix.C: assemSparse"]}
{"id": "C11", "title": "The sparse matrix behaves like a dense matrix in every storage state", "statement": "In every storage format (editable map, preallocated map, locked row-compressed, locked column-compressed) the value read at (r,c) after any sequence of entry additions, assembly and conversion operations equals the sum of the values added at (r,c); converting an editable matrix to a compressed format changes no entry.", "quantifier": "every sequence of operations and every matrix size", "why_tests_cant": "Unbounded histories and storage states.", "anchors": ["src/LinAlg/SparseMatrix.C: SparseMatrix::operator(), optimiseRows, optimiseCols, assemble"]}
{"id": "C12", "title": "The preallocated sparsity pattern covers everything assembly touches", "statement": "The sparsity pattern computed by SAM::getDofCouplings contains every (equation, equation) pair that assembling any element writes, so assembly into a preallocated/locked matrix never loses or misplaces a coefficient. (All solvers and locking modes except row-compressed preallocation without delayed locking, where the code locks an empty pattern: counterexample theorem.)", "quantifier": "every element topology and constraint table", "why_tests_cant": "Every combination of slaves sharing masters across elements.", "anchors": ["src/LinAlg/SAM.C: SAM::getDofCouplings", "src/LinAlg/SparseMatrix.C: SparseMatrix::preAssemble"]}
{"id": "C13", "title": "Dense, sparse and diagonal storage agree", "statement": "Assembling the same elements into a DenseMatrix and into a SparseMatrix gives the same matrix; a DiagMatrix holds exactly its diagonal whenever no element addresses the same equation through two different DOFs.", "quantifier": "every list of element contributions", "why_tests_cant": "Universal over meshes.", "anchors": ["src/LinAlg/DenseMatrix.C", "src/LinAlg/SparseMatrix.C", "src/LinAlg/DiagMatrix.C"]}
{"id": "C14", "title": "Matrix-vector product and matrix addition agree with the stored entries", "statement": "SystemMatrix::multiply computes A x and add(B,alpha) computes A + alpha B in every storage format. (Exceptions, each with a counterexample theorem: the product with a compressed UMFPACK matrix, and the sum of matrices held in different compressed formats.)", "quantifier": "every matrix, vector, scale factor and storage format", "why_tests_cant": "Universal over matrices and formats.", "anchors": ["src/LinAlg/SparseMatrix.C: SparseMatrix::multiply, add", "src/LinAlg/DenseMatrix.C: DenseMatrix::multiply, add"]}
{"id": "C15", "title": "Assembly never accesses memory outside its arrays", "statement": "For tables accepted by initSystemEquations and element topologies with node numbers in range, no table lookup or update performed by equation lookup, assembly, expansion and reaction assembly is out of bounds.", "quantifier": "every valid model (tables as documented in SAM.h) and every list of elements with matrices and vectors of the element's dimension", "why_tests_cant": "Memory safety for all inputs.", "anchors": ["src/LinAlg/SAM.C", "src/LinAlg/DenseMatrix.C"]}
{"id": "C16", "title": "Constraint sets hold at most one constraint per slave DOF", "statement": "The comparator used for the constraint set is a strict weak ordering under which two constraints are equivalent exactly when they have the same slave (slave-only mode), so a set never holds two constraints for one slave DOF and lookups find it.", "quantifier": "every pair/triple of constraints, every insertion history", "why_tests_cant": "Ordering axioms are universally quantified; std::set is undefined without them.", "anchors": ["src/Utility/MPC.C: MPCLess::operator(), operator==", "src/ASM/ASMbase.C: ASMbase::findMPC, addMPC"]}
{"id": "C17", "title": "Master terms accumulate", "statement": "MPC::addMaster and merge keep the constraint's meaning: the value of a constraint in any displacement field equals the offset plus the sum of all added coefficient*value terms, with at most one stored term per master DOF; iMaster/erase behave accordingly.", "quantifier": "every sequence of addMaster/merge/remove operations and every displacement field", "why_tests_cant": "Unbounded operation sequences.", "anchors": ["src/Utility/MPC.C", "src/Utility/MPC.h: MPC::addMaster, removeMaster"]}
{"id": "C18", "title": "Resolving chained constraints preserves their meaning", "statement": "Resolving a (chained) multi-point constraint into free DOFs gives a constraint satisfied by exactly those displacement fields that satisfy the original constraints, and no master of the resolved constraint is itself a slave. (Exact arithmetic and constraints whose chain products are not dropped by the truncation tolerance, e.g. integer coefficients; counterexample theorems for small coefficients and for cyclic chains.)", "quantifier": "every acyclic set of constraints and every displacement field satisfying them", "why_tests_cant": "Unbounded chain depth and branching.", "anchors": ["src/ASM/ASMbase.C: ASMbase::resolveMPCchains, resolveMPCchain", "src/ASM/SAMpatch.C: SAMpatch::initConstraintEqs"]}
{"id": "C19", "title": "Boundary codes: fixing is monotone, idempotent and order independent", "statement": "Fixing DOFs of a node with any sequence of codes suppresses exactly the union of the requested components, independently of order and repetition; a free operation releases exactly those requested. (Queries for one component; the query for several components at once is wrong: counterexample theorem.)", "quantifier": "every sequence of fix calls over every node and code", "why_tests_cant": "All sequences and orders.", "anchors": ["src/ASM/ASMbase.C: ASMbase::fix, BC::fix, BC::free", "src/ASM/SAMpatch.C: SAMpatch::initNodeDofs"]}
{"id": "C20", "title": "Scalar products and norms by DOF type", "statement": "SAM::dot is the sum of products over the DOFs of the requested type (all DOFs for type A or without classification), hence symmetric and linear; norm2 is its square root; normL2 the root mean square over the DOFs of the type; normInf returns the largest absolute value among the DOFs of the requested component and type, and the first node where it is attained. (normInf and dot interpret types alike only when nodes are not classified as well, and normInf by type presupposes a vector of full length: counterexample theorems.)", "quantifier": "all models, DOF vectors, classifications of nodes and DOFs, types and components", "why_tests_cant": "Universal over vectors and classifications.", "anchors": ["src/LinAlg/SAM.C: SAM::dot, normL2, normInf", "src/LinAlg/SAM.h: SAM::norm2", "src/LinAlg/matrix.h: vector::dot, normInf"]}
{"id": "C21", "title": "Nodal renumbering is an order-preserving bijection onto 1..n", "statement": "renumberNodes compresses any set of global node numbers into 1..n without holes, maps equal numbers to equal numbers, distinct to distinct, and preserves relative order across patches. (The iteration order of a constraint set whose members are renumbered in place, and merges of nodes shared by patches that are not direct neighbours, are not preserved: counterexample theorems.)", "quantifier": "every set of patches and global node numbers", "why_tests_cant": "Universal over number sets.", "anchors": ["src/ASM/ASMbase.C: ASMbase::renumberNodes", "src/Utility/Utilities.C: utl::renumber"]}
{"id": "C22", "title": "Patch extraction and injection of nodal vectors are inverse to each other", "statement": "injecting a patch-level nodal vector into the global vector and extracting it again returns the same patch vector; extraction reads only, and injection writes only, the DOFs of the patch's nodes. (Nodal vectors of single-basis patches, and of one basis of mixed patches. Injection of all bases at once, and the index check of injectNodalVec at the very end of the vector, are wrong: counterexample theorems.)", "quantifier": "every patch topology (distinct global nodes), DOF layout and vector", "why_tests_cant": "Universal over layouts.", "anchors": ["src/ASM/ASMbase.C: ASMbase::extractNodeVec, injectNodeVec, extractNodalVec, injectNodalVec"]}
{"id": "C23", "title": "Threading groups partition the elements", "statement": "Every (non-zero-span) element of a structured patch is integrated exactly once: the threads of the generated groups contain each such element index exactly once and no index out of range. (Groups generated once, with a strip direction; repeated generation on the same object, and the generation with no direction for faces and triangles, are wrong: counterexample theorems.)", "quantifier": "every patch size, zero-span pattern, thread count, minimum stripe size and direction", "why_tests_cant": "Unbounded sizes and patterns; a missed element corrupts the system silently.", "anchors": ["src/Utility/ThreadGroups.C: ThreadGroups::calcGroups, oneGroup, oneStripe"]}
{"id": "C24", "title": "Threads in the same group never touch the same unknowns", "statement": "Two elements assigned to different threads of the same group are separated by more than the spline support in the strip direction, so they share no basis function and can be assembled concurrently without data races. (Patches without multi-point constraints between their own nodes.)", "quantifier": "every patch size, zero-span pattern, thread count and polynomial degree", "why_tests_cant": "Data races are schedule dependent.", "anchors": ["src/Utility/ThreadGroups.C: ThreadGroups::calcGroups, getStripDirection"]}
{"id": "C25", "title": "Time stepping advances monotonically and stops exactly at the stop time", "statement": "TimeStep::increment advances the time by the current step size, never beyond the stop time, reports false only if finished, and the loop terminates.", "quantifier": "every time step table, starting time and sequence of increment/cutback calls", "why_tests_cant": "Unbounded sequences of operations.", "anchors": ["src/SIM/TimeStep.C: TimeStep::increment, finished, cutback"]}
{"id": "C26", "title": "Cut-back restarts from the previous converged state with a smaller step", "statement": "TimeStep::cutback moves the time back to the start of the failed step and reduces the step size by the cut-back factor, never below the minimum size, otherwise returns false; repeated cut-backs terminate.", "quantifier": "every state and sequence of cut-backs", "why_tests_cant": "Unbounded sequences.", "anchors": ["src/SIM/TimeStep.C: TimeStep::cutback"]}
{"id": "C27", "title": "Restart reproduces the uninterrupted time stepping", "statement": "Serialising the TimeStep, restoring it and continuing yields the same sequence of times and step sizes as continuing without interruption.", "quantifier": "every reachable state and number of continued steps", "why_tests_cant": "All crash/restart points.", "anchors": ["src/SIM/TimeStep.C: TimeStep::serialize, deSerialize, reset"]}
{"id": "C28", "title": "BDF coefficients are consistent for every step-size history", "statement": "The (variable step) BDF coefficients reproduce the derivative of every polynomial up to the order of the scheme at the new time, for every history of positive step sizes (second-order problems: constant step size), and the element-level Newton system built from them is consistent. (For the second-order scheme the second step must have the size of the first: counterexample theorem.)", "quantifier": "every polynomial of the respective degree and every step-size history", "why_tests_cant": "Universal over real coefficients and histories.", "anchors": ["src/Utility/BDF.C: BDF::setOrder, advanceStep, TimeIntegration::BDF, BDFD2"]}
{"id": "C29", "title": "Newmark relations hold after every predictor and correction", "statement": "After predictStep and any number of correctStep calls, displacement, velocity and acceleration satisfy the Newmark difference formulas with respect to the previous step for every predictor choice. (HHT: unless the very first residual check already passes: counterexample theorem.)", "quantifier": "every state, dt, beta, gamma and sequence of solution increments", "why_tests_cant": "Unbounded iterations, real parameters.", "anchors": ["src/SIM/NewmarkSIM.C: NewmarkSIM::predictStep, correctStep", "src/SIM/NewmarkNLSIM.C", "src/SIM/HHTSIM.C"]}
{"id": "C30", "title": "The Newmark/HHT/generalised-alpha Newton matrix is the exact tangent", "statement": "For linear element matrices, solving the assembled Newton system once makes the dynamic residual vanish exactly: the tangent from getNewtonMatrix is consistent with getRHSVector and with correctStep. (Non-negative Rayleigh coefficients: counterexample theorem for negative ones.)", "quantifier": "every mass, damping, stiffness matrix, Rayleigh coefficients, step size and state", "why_tests_cant": "Algebraic identity in all parameters.", "anchors": ["src/ASM/NewmarkMats.C", "src/ASM/HHTMats.C", "src/ASM/BDFMats.C", "src/SIM/NewmarkSIM.C", "src/SIM/GenAlphaSIM.C"]}
{"id": "C31", "title": "Pushing solutions keeps the history", "statement": "pushSolution moves every stored solution state one step back, keeps the current state and drops only the oldest one.", "quantifier": "every stack depth and number of vectors per state", "why_tests_cant": "All depths.", "anchors": ["src/SIM/SIMsolution.C: SIMsolution::pushSolution"]}
{"id": "C32", "title": "Newton iterations terminate with a truthful verdict", "statement": "NonLinSIM::solveStep terminates for every residual history; it reports convergence only if the norm test passed and reports divergence after the configured number of increasing norms or the maximum number of iterations. (One solver object at a time, whose norms are numbers: counterexample theorems for interleaved solvers and NaN increments.)", "quantifier": "every sequence of residual norms and linear-solver outcomes", "why_tests_cant": "Unbounded histories.", "anchors": ["src/SIM/NonLinSIM.C: NonLinSIM::solveStep, checkConvergence"]}
{"id": "C33", "title": "Line search applies the increment it reports", "statement": "The line search adds multiples of the linear solution increment to the solution whose total lies in [0.5,1.5] and is the reported step length, up to the relative step length tolerance. (Non-zero initial energy: counterexample theorem.)", "quantifier": "every sequence of energy values", "why_tests_cant": "All histories of evaluations.", "anchors": ["src/SIM/NonLinSIM.C: NonLinSIM::lineSearch"]}
{"id": "C34", "title": "Integer list parsing", "statement": "utl::parseIntegers yields the listed integers and the inclusive ranges a:b in order.", "quantifier": "every well-formed input string", "why_tests_cant": "Infinite language.", "anchors": ["src/Utility/Utilities.C: utl::parseIntegers", "src/Utility/StringUtils.C"]}
{"id": "C35", "title": "Component-code digits", "statement": "utl::getDigits / getDirs / findIndex return exactly the digits (sorted/unique) of the component code, resp. the right position in sorted arrays.", "quantifier": "every code number", "why_tests_cant": "Infinite domain.", "anchors": ["src/Utility/Utilities.C: utl::getDigits, getDirs"]}
{"id": "C36", "title": "Lagrange basis functions interpolate, sum to one and have exact derivatives", "statement": "Lagrange::computeBasis returns the tensor-product Lagrange polynomials: value one at the own node, zero at others, sum one everywhere, reproduction of all polynomials up to the degree, and the reported derivatives are the derivatives of the reported values.", "quantifier": "every degree (any distinct interpolation points) and evaluation point", "why_tests_cant": "Universal over degrees and real points.", "anchors": ["src/ASM/Lagrange.C: Lagrange1D::eval, Lagrange::computeBasis"]}
{"id": "C37", "title": "Structured Lagrange meshes: connectivity is a valid conforming numbering", "statement": "The element-to-node connectivity of structured Lagrange patches addresses only existing nodes, each element has distinct nodes, every node belongs to some element, and neighbouring elements share exactly the nodes of the common face.", "quantifier": "all numbers of elements and polynomial orders in each direction", "why_tests_cant": "Infinite family.", "anchors": ["src/ASM/ASMs2DLag.C: ASMs2DLag::generateFEMTopology", "src/ASM/ASMs3DLag.C", "src/ASM/ASMs1DLag.C"]}
{"id": "C38", "title": "Reaction forces equal the residual at the supported DOFs", "statement": "assembleReactions accumulates, over all elements, exactly the element-vector entries acting on suppressed DOFs, so getNodalReactions returns the sum over elements of the internal forces for that DOF.", "quantifier": "every list of elements and vectors", "why_tests_cant": "Universal over meshes.", "anchors": ["src/LinAlg/SAM.C: SAM::assembleReactions, getNodalReactions, getReaction"]}
{"id": "C39", "title": "Reaction contributions of prescribed values", "statement": "Assembling an element matrix with reaction forces adds -(K_e g)(d) to the reaction of every suppressed DOF d, where g holds the prescribed values.", "quantifier": "every model, element and prescribed values", "why_tests_cant": "Universal over element sizes, constraint placement and values.", "anchors": ["src/LinAlg/SAM.C: SAM::assembleSystem(SystemMatrix&,SystemVector&,const Matrix&,int,RealArray*)"]}
{"id": "C40", "title": "Right-hand-side-only assembly agrees with full assembly", "statement": "Re-assembling only the right-hand side (rhsOnly) yields exactly the right-hand-side vector that full assembly of matrix and vector produces.", "quantifier": "every model, list of elements, start vector", "why_tests_cant": "Universal over meshes, constraints and values.", "anchors": ["src/LinAlg/SAM.C: SAM::assembleSystem(SystemVector&,const Matrix&,int)", "src/ASM/AlgEqSystem.C: AlgEqSystem::assemble"]}
{"id": "C41", "title": "Nodal, single-DOF and global load vectors do the right virtual work", "statement": "Adding a load at a node, at one local DOF or as a full DOF vector adds to each equation the work of the load on the equation's global shape function (slave DOFs pass their load on to the masters); invalid nodes/DOFs are rejected.", "quantifier": "every model, node, DOF and load", "why_tests_cant": "Universal over models.", "anchors": ["src/LinAlg/SAM.C: SAM::assembleSystem(sysRHS,nS,inod), assembleSystem(sysRHS,S,dof), addToRHS"]}
{"id": "C42", "title": "Extracting and expanding solutions are inverse", "statement": "getSolVec gives each equation the value of its free DOF; getSolVec after expandVector is the identity, and expandVector after getSolVec is the identity on fields satisfying the constraints.", "quantifier": "every model, every vector", "why_tests_cant": "Universal over models and vectors.", "anchors": ["src/LinAlg/SAM.C: SAM::getSolVec, expandVector"]}
{"id": "C43", "title": "Prescribed values are applied exactly", "statement": "applyDirichlet leaves free DOFs alone, sets each constrained DOF to the constant of its constraint and each fixed DOF to zero.", "quantifier": "every model and DOF vector", "why_tests_cant": "Universal over models and vectors.", "anchors": ["src/LinAlg/SAM.C: SAM::applyDirichlet"]}
{"id": "C44", "title": "The ends of the series of time steps are hit exactly", "statement": "With a table of series of time steps, no end time of a series is jumped over: each end time not beyond the final time is the time of one of the steps taken. (Runs without cut-backs: counterexample theorem.)", "quantifier": "every step table, every reported iteration count and CFL number, every number of steps", "why_tests_cant": "Quantifies over all tables and unbounded runs.", "anchors": ["src/SIM/TimeStep.C: TimeStep::increment, cutback"]}
{"id": "C45", "title": "A copied time stepping continues like the original", "statement": "After assigning one TimeStep object to another, the copy yields the same sequence of times and step sizes as the original.", "quantifier": "every state and every continuation", "why_tests_cant": "Quantifies over all states and continuations.", "anchors": ["src/SIM/TimeStep.C: TimeStep::operator="]}
{"id": "C46", "title": "Every computed increment is applied exactly once", "statement": "When a nonlinear static or dynamic step converges, the new solution equals the start solution plus every linear solution increment computed in the step exactly once (with its line search step length), and a new tangent was assembled exactly in the iterations allowed by the tangent update limit.", "quantifier": "every number of iterations, increments, line search histories and control parameters", "why_tests_cant": "Unbounded iteration histories.", "anchors": ["src/SIM/NonLinSIM.C: NonLinSIM::solveStep, updateConfiguration, lineSearch", "src/SIM/NewmarkSIM.C: NewmarkSIM::solveStep"]}
{"id": "C47", "title": "Saved solutions are restored unchanged", "statement": "Restoring a solution saved under a name gives the saved vectors, whatever else is saved to the same container. (A name not yet present in the container: counterexample theorem.)", "quantifier": "every solution stack, container contents and sequence of later saves", "why_tests_cant": "All container histories.", "anchors": ["src/SIM/SIMsolution.C: SIMsolution::saveSolution, restoreSolution"]}
{"id": "C48", "title": "Array utilities", "statement": "find_closest returns the index of a value of a sorted array with smallest distance; merge gives the union, keeping the first list and adding each new number once, with the values of the right keys; interleave places the values of both vectors node by node; gather copies the block of every index, returns the number of indices without block, and reads nothing outside the input if this consists of whole blocks.", "quantifier": "all arrays, sorted arrays, index lists and block sizes", "why_tests_cant": "The properties hold for arrays of any length; out-of-bounds reads are invisible to value tests.", "anchors": ["src/Utility/Utilities.C: utl::find_closest, merge, interleave, gather"]}
{"id": "C49", "title": "Graded knot vectors", "statement": "Geometrically graded knots are strictly increasing inside the interval, with exactly the requested ratio between consecutive spans including the last one; centred grading of an interval starting at zero is symmetric about its midpoint; the fifth order grading of the whole interval keeps the ends, is symmetric, and has the requested slopes at the ends and the midpoint.", "quantifier": "every number of knots, positive ratio and interval", "why_tests_cant": "Any number of knots and any ratio.", "anchors": ["src/Utility/Utilities.C: utl::parseKnots"]}
{"id": "C50", "title": "Couplings add exactly the intended constraint equations", "statement": "Two-point, three-point, periodicity, rigid, nodal and local-axes couplings and prescribed values applied to slave DOFs that are neither fixed nor already slaves add exactly the equations they are meant to express (a rigid coupling says u_s = u_m + theta_m x dX, a local-axes coupling u_s = T u_m, ...), leave fixed slaves, existing constraints and boundary codes untouched, and prescribe() returns exactly the components it ignored.", "quantifier": "every patch state with consistent boundary codes and constraint set, every slave/master/direction/weight/position", "why_tests_cant": "The constraint set and the boundary codes depend on the whole history of calls; the equations must hold for every position, weight and displacement field.", "anchors": ["src/ASM/ASMbase.C: ASMbase::addMPC, add2PC, add3PC, addPeriodicity, addRigidMPC, addRigidCouplings, addNodalCouplings, addLocal2GlobalCpl, prescribe"]}
{"id": "C51", "title": "Tables built from patches represent the model", "statement": "For a consistent multi-patch model the tables of the assembly manager are built without leaving any array, elements appear in the order of their numbers (missing numbers give empty elements), and the displacement fields obtained by expanding solution vectors are exactly those which vanish in all DOFs fixed by some patch and obey every constraint with a non-fixed slave, however long the constraint chains are. Conflicting nodal DOF counts and duplicate element numbers are reported, and the constraint tables never outgrow the memory allocated for them. (Constraint chains resolved by the set-up code, with masters that are not fixed by another patch: counterexample theorems otherwise.)", "quantifier": "every list of patches: any number of nodes, DOFs per node, boundary codes, constraints with acyclic chains, elements in any order with holes and inactive elements", "why_tests_cant": "Quantifies over all models and all displacement fields; the table layout and the recursion over chains have no bound.", "anchors": ["src/ASM/SAMpatch.C: SAMpatch::init, initNodeDofs, initElementConn, initConstraintEqs", "src/Utility/MPC.C: MPC::getNoMaster"]}
{"id": "C52", "title": "Reaction force sums and work", "statement": "The reaction force in a direction is the sum over the nodes (or the nodes of a set, each counted once) of the forces at suppressed DOFs in that direction; asking for several overlapping node sets one after the other counts each node once; reactions are reported to exist exactly when such a DOF exists; the work of the reactions is the sum over DOFs with prescribed values.", "quantifier": "every model, reaction force array, direction, and sequence of node sets", "why_tests_cant": "Universal over models and over sequences of calls that mutate the array.", "anchors": ["src/LinAlg/SAM.C: SAM::getReaction, haveReaction, normReact"]}
{"id": "C53", "title": "Equation sets by DOF type", "statement": "The set of equations of a DOF type contains exactly the equation numbers of the free DOFs of that type; restricted to a local DOF it contains exactly those of that local DOF.", "quantifier": "every model, classification of nodes and DOFs, type, local DOF", "why_tests_cant": "Universal over models and classifications.", "anchors": ["src/LinAlg/SAM.C: SAM::getEquations"]}
{"id": "C54", "title": "Colouring of unstructured patches separates elements that share unknowns", "statement": "For unstructured patches with multi-threading, the colouring gives every element exactly one colour, and two elements of the same colour never contribute to a common node or basis function - also not through a multi-point constraint between nodes of the patch. One-noded elements on the same node that the caller asked to put in a separate colour, and constraints to masters outside the patch, are the only exceptions.", "quantifier": "all locally refined meshes and all unstructured Lagrange patches: any number of elements, nodes, connectivity and constraints", "why_tests_cant": "a data race between two elements of one colour only shows for particular meshes and schedules", "anchors": ["src/ASM/ASMu2DLag.C:383-471 generateThreadGroupsMultiColored", "src/ASM/LR/ASMLRSpline.C:95-184 LR::generateThreadGroups"]}
{"id": "C55", "title": "Spline patches: the nodes of an element are the basis functions acting on it", "statement": "For structured spline curve, surface and volume patches with any non-decreasing knot vectors, each knot interval (cell) with positive length is an element whose nodes are, in a fixed order, exactly the (tensor product) B-spline basis functions which are non-zero inside that cell; cells of zero length have no nodes.", "quantifier": "all numbers of basis functions, orders and knot vectors (including repeated knots), all elements and all points inside them", "why_tests_cant": "Infinite family of knot vectors; tests cover a few uniform ones.", "anchors": ["src/ASM/ASMs1D.C: ASMs1D::createMNPC", "src/ASM/ASMs2D.C: ASMs2D::createMNPC", "src/ASM/ASMs3D.C: ASMs3D::createMNPC"]}
{"id": "C56", "title": "Structured patches: boundary nodes, edges, corners and boundary elements", "statement": "The nodes returned for a local edge or face (with any layer thickness) of a structured patch are exactly the nodes of the control net lying in the boundary layer, each once; the nodes of an edge of a volume are those on both adjoining faces, without the end points for an open edge; corner queries return the node on all adjoining edges/faces; boundary element queries return exactly the first or last layer of elements. A parameter direction that has been swapped is accounted for as the user sees the patch. (The swap flag is honoured for volumes; for surfaces it is ignored: counterexample theorem.)", "quantifier": "all patch sizes, local indices, thicknesses, start nodes and swap flags", "why_tests_cant": "Infinite family of sizes; off-by-one errors only show for particular sizes and thicknesses.", "anchors": ["src/ASM/ASMs2D.C: ASMs2D::getBoundaryNodes, getCorner, findBoundaryElms", "src/ASM/ASMs3D.C: ASMs3D::getBoundaryNodes, getBoundary1Nodes, getCorner, findBoundaryElms"]}
{"id": "C57", "title": "Connecting patches joins the matching nodes", "statement": "Connecting two structured patches along an edge or face with a given relative orientation joins each node of the neighbour's boundary with exactly the node at the matching position on this patch's boundary, one-to-one, and only if the sizes match; the connection is reported successful exactly if all joined nodes are co-located (or the coordinate check is off). (Patches not swapped; one node layer, or several layers with equal orientation: counterexample theorems.)", "quantifier": "all patch sizes, pairs of edges/faces, orientation flags, and co-location predicates", "why_tests_cant": "Infinite family of sizes, 4x4x2 edge and 6x6x8 face combinations.", "anchors": ["src/ASM/ASMs2D.C: ASMs2D::connectPatch, connectBasis", "src/ASM/ASMs3D.C: ASMs3D::connectPatch, connectBasis"]}
{"id": "C58", "title": "Explicit Runge-Kutta methods have their order; embedded methods control the error", "statement": "A step of the explicit Runge-Kutta drivers evaluates the stages of the chosen tableau from the end of the previous step, with the boundary values of the stage times, and ends with the boundary values of the new time. Euler, Heun, RK3 and RK4 have the order reported by the library (local error of order h^(p+1)), also for time dependent right-hand sides and boundary values; the embedded pairs Heun-Euler, Bogacki-Shampine and Fehlberg have orders 1(2), 2(3), 4(5). A step of an embedded method which succeeds has an estimated error of at most the tolerance and is the step from the unchanged previous solution with the (possibly reduced) step size; the retry loop ends. (Exact arithmetic; tolerance below one and first step number one: counterexample theorems.)", "quantifier": "all simulators, right-hand sides, boundary values, solutions, step sizes, tolerances and numbers of cut-backs", "why_tests_cant": "The order is an asymptotic statement about all smooth problems; tests check single problems.", "anchors": ["Apps/Utils/SIMExplicitRK.h: SIMExplicitRK, solveRK", "Apps/Utils/SIMExplicitRKE.h: SIMExplicitRKE, solveStep", "Apps/Utils/TimeIntUtils.C: get, Order"]}
{"id": "C59", "title": "Linear multistep methods use the right history and have their order", "statement": "With constant step size, every step of the explicit (implicit) linear multistep driver is an Adams-Bashforth (Adams-Moulton) step with the rates of the previous time levels, of order min(order of the method, step number), or of full order from the first step on if initial conditions for all previous levels are given (explicit methods). The weights with q values are exact for solutions that are polynomials of degree q, and the local error is of order h^(q+1) for analytic ones. Load vectors are never used after being freed, and the driver can be destroyed after every completed step. (Counterexample theorems: restart; destruction after an incomplete step; implicit methods with initial conditions.)", "quantifier": "all simulators with constant coefficient matrix, right-hand sides, numbers of steps, methods and initial conditions", "why_tests_cant": "A statement about all histories; wrong shifting of the load vectors only shows after several steps.", "anchors": ["Apps/Utils/SIMExplicitLMM.h: SIMExplicitLMM, solveStep, advanceStep", "Apps/Utils/SIMImplicitLMM.h: SIMImplicitLMM, solveStep, advanceStep, ~SIMImplicitLMM"]}
{"id": "C60", "title": "Dense matrix operations are the operations of linear algebra", "statement": "The dense matrix class holds, for every number of rows and columns, exactly the matrix it was given: reading and storing entries, rows, columns and blocks (cut off at the borders, optionally transposed), adding and removing rows and columns, diagonal matrices, transposition, sums, scaling, outer products, matrix-vector and matrix-matrix products with all combinations of transposition, scaling and accumulation are those of linear algebra, incompatible dimensions are refused or give an empty result, and for dimensions one to three the determinant is right and a matrix whose determinant exceeds the tolerance is replaced by its two-sided inverse. (Exact arithmetic, implementation without BLAS. Counterexample theorems: determinant -999; growing a matrix without rows and with several columns; trace of a matrix with more columns than rows; strided BLAS operations when the increment does not divide the size or the offset is not below the increment.)", "quantifier": "all matrices of all dimensions, all blocks and offsets, all flags and scalars", "why_tests_cant": "Index arithmetic of column-major storage must be right for all dimensions; tests use a few small ones.", "anchors": ["src/LinAlg/matrix.h: utl::matrix, utl::vector", "src/LinAlg/matrix.h: expandRows, augmentRows, fillBlock, extractBlock, inverse, multiply, outer_product"]}
{"id": "C61", "title": "Derivatives with respect to physical coordinates", "statement": "For a geometry mapping x(u) = sum of control points times basis functions with a regular Jacobian matrix (determinant above the tolerance and not -999), in one to three dimensions: the Jacobian function returns the determinant, the inverse matrix and, for every basis function, exactly the partial derivatives of that basis function regarded as a function of the physical coordinates; at a singular point zero and no derivatives are returned; for curves and surfaces in space the length or area dilation is returned and the derivatives stay parametric; on edges and faces the unit tangent or outward unit normal and the dilation are returned as well; the Hessian function returns the second derivatives with respect to the physical coordinates and its compact form lists them in the order 11,22,33,12,13,23; third derivatives in one and two dimensions are right for mappings with constant Jacobian; the gradients of the Jacobian matrix and (in two and three dimensions) of its determinant with respect to the physical coordinates are right; the element metric matrix is the stated product and, for square elements in the plane, the metric of the element coordinates. (Exact real arithmetic. Counterexample theorems: third derivatives for curved mappings, reused result matrices of the gradient function, determinant gradient in one dimension.)", "quantifier": "all twice (three times) differentiable basis functions, all control points and parameter points with regular Jacobian, dimensions one to three", "why_tests_cant": "The chain rule with inverse Jacobians must hold for all geometries and basis functions; tests check a few polynomials.", "anchors": ["src/Utility/CoordinateMapping.C: utl::Jacobian, utl::Hessian, utl::Hessian2, utl::getGmat, utl::JacobianGradient, utl::detJacGradient", "src/Utility/Vec3.h: Vec3::normalize, Vec3::cross"]}
{"id": "C62", "title": "Derivatives for mixed elements and the Piola mapping", "statement": "For an element with several bases, at a point with regular Jacobian matrix: the derivatives of every function of every basis with respect to the physical coordinates are those of the common geometry mapping, whether the geometry is given by one of the element's bases or by a separate basis, in the interior and on edges and faces; on an interface between two elements the first half of the bases uses the geometry of the first element and the second half that of the second; second derivatives likewise. The Piola mapping stores function i of basis b in column (number of functions in earlier bases)+i as the vector J e_b N/det J, its derivatives with respect to the physical coordinates in the rows k*dim+j, and the divergence formed from these rows is dN/du_b / det J. Given another number than det J, the vectors are scaled by det J over that number. (Exact real arithmetic.)", "quantifier": "all numbers of bases and functions, all differentiable basis functions and control points with regular Jacobian, two and three dimensions (Jacobian in one to three)", "why_tests_cant": "The loops skip the geometry basis and reuse matrices, and the quotient rule behind the Piola gradient must hold for every geometry; tests check a few elements.", "anchors": ["src/ASM/FiniteElement.C: MxFiniteElement::Jacobian, MxFiniteElement::Hessian, MxFiniteElement::piolaMapping, MxFiniteElement::piolaBasis, MxFiniteElement::piolaGradient"]}
{"id": "C63", "title": "Equations without contributions and sums of system matrices", "statement": "After assembling any list of elements of a valid model with at least two equations, in any order, exactly the equations an element of the list acts upon (directly or through a constraint) are flagged as non-zero; the rows, columns and right-hand-side components of the other equations are zero. Closing the assembly changes no coefficient of a flagged equation and turns every other equation into a decoupled one with pivot 10^9, if anything was assembled at all; so the solution is zero there and the other unknowns are not influenced. The same holds for dense and for all kinds of sparse storage. Adding a multiple of one assembled matrix to another one adds the entries and flags the equations touched by either. The diagonal solver divides each component by its pivot, and reports failure if a pivot is (near) zero.", "quantifier": "all valid models with at least two equations, all lists of elements and all element matrices, dense storage and sparse storage of any solver type with the pattern built on the fly or preallocated (then: every equation acted upon by some element of the model)", "why_tests_cant": "The flags are maintained by separate code next to the assembly; whether they always agree with the coefficients cannot be seen from a few models.", "anchors": ["src/LinAlg/SystemMatrix.C: initNonZeroEqs, flagNonZeroEq, flagNonZeroEqs, isZero, endAssembly", "src/LinAlg/DenseMatrix.C: DenseMatrix::add", "src/LinAlg/DiagMatrix.C: DiagMatrix::add, DiagMatrix::solve", "src/LinAlg/SparseMatrix.C: SparseMatrix::add"]}
{"id": "C64", "title": "Numerical integration over spline patches", "statement": "The tabulated one- to ten-point rules are Gauss rules: points strictly inside [-1,1] in increasing order, positive weights, and monomials of degree up to twice the number of points minus one integrated with a relative error of at most 1e-14 (the ten-point rule: 1.1e-8), after rounding to double precision. No rule is returned for negative numbers or numbers above ten. The integration points of every non-empty knot span are strictly inside of it. Integrating a function which on every element is a polynomial of degree up to twice the number of points minus one in each direction, over a curve, a surface or a volume patch with an arbitrary (also repeated) knot vector, gives its integral up to the relative accuracy of the rules, in whatever order the elements are visited. Whatever the cache policy and the order of requests, the cached basis function values are those at the requested integration point of the requested element.", "quantifier": "all knot vectors, polynomial orders, numbers of integration points from one to ten in each direction, element orderings, piecewise polynomial integrands, sequences of cache requests", "why_tests_cant": "Exactness over all knot vectors and polynomials, for every order of visiting elements and every history of cache requests, is a statement about infinitely many inputs.", "anchors": ["src/Utility/GaussQuadrature.C: getGauss, getCoord, getWeight", "src/ASM/ASMs1D.C: getGaussParameters, getParameterDomain, integrate", "src/ASM/ASMs2D.C: getGaussPointParameters, integrate, getParametricArea, BasisFunctionCache", "src/ASM/ASMs3D.C: integrate, getParametricVolume, BasisFunctionCache", "src/ASM/BasisFunctionCache.C: init, getVals", "src/ASM/ASMbase.C: getNoGaussPt"]}
{"id": "C65", "title": "Integration rules and differentiation of spectral elements", "statement": "For every degree from one and every point of [-1,1] the value and the derivative of the Legendre polynomial are computed, everything else is refused. For every number of points from three, the Gauss-Legendre rule computed from eigenvalues has increasing points inside of the interval and positive weights, and integrates all polynomials of degree less than twice the number of points exactly. The Gauss-Lobatto-Legendre rule contains both ends of the interval, and every other point returned is, up to the tolerance of the iteration times the number of points plus one, a zero of the derivative of the Legendre polynomial (times 1-x^2); zeros are fixed points of the iteration; with such zeros as points the rule is exact up to degree 2n-3 with positive weights, and the derivative matrix gives the exact derivative in the points of every polynomial of degree less than n. The two- and three-point Lobatto rules are always exact.", "quantifier": "all numbers of points, all points of the interval, all polynomials up to the stated degrees, every correct eigenvalue solver and every number of iterations", "why_tests_cant": "Exactness for all polynomials and every number of points is a theorem about orthogonal polynomials, not about samples.", "anchors": ["src/Utility/Legendre.C: GL, GLL, eval, derEval, basisDerivatives", "src/LinAlg/DenseMatrix.C: solveEigNon"]}
{"id": "C66", "title": "Global equation numbers of a domain decomposition", "statement": "All processes of a parallel run call the numbering of global equations and send each other messages. If every connection has its master patch on a lower rank than its slave patch, the two sides match (same bases, nodes and components, constrained alike), then every execution ends, whatever the schedule and whether sends wait for the receiver or not, always with the same result: the numbers used are exactly 1 to N, each process owns a contiguous range (its reported minimum and maximum) ordered by rank, owned equations keep their local order, and two equations get the same number if and only if the connections (and the shared multipliers) say, directly or through others, that they are the same equation. When the elements of a single model are distributed instead, every equation of an element that is integrated somewhere gets one number, owned by the first process which has an element with it, and the numbers of all processes are 1 to N. If a master patch is on a higher rank the run can deadlock.", "quantifier": "all numbers of processes, all patches and connections, all message schedules and buffering of messages", "why_tests_cant": "A deadlock or a race depends on the schedule, and consistency across ranks on all decompositions: a test runs one decomposition with one schedule.", "anchors": ["src/ASM/DomainDecomposition.C: calcGlobalEqNumbers, calcGlobalEqNumbersPart", "src/LinAlg/ProcessAdm.C: send, receive"]}
{"id": "C67", "title": "Structured domain decomposition agrees with the serial model", "statement": "If two structured patches are on different processes, the process which owns the slave takes for each node of its face (or edge) the number of exactly that node of the master with which a serial run joins it, for every orientation flag and all sizes, provided faces whose directions are swapped have as many nodes in both directions. The division of a patch into subdomains covers every element, contains only elements of the patch and none twice within a subdomain; consecutive subdomains overlap by the given number of elements in each direction, and without overlap every element is in exactly one. This holds whenever the overlap is between one and the width of a subdomain, or without overlap if the last subdomain starts within the patch; otherwise elements can be lost or an exception is thrown.", "quantifier": "all patch sizes, faces, orientations, layers, numbers of subdomains and overlaps", "why_tests_cant": "The index arithmetic must be right for every size and orientation; tests use square faces, where a wrong stride is not seen.", "anchors": ["src/ASM/DomainDecomposition.C: OrientIterator, calcSubdomains, calcSubdomains1D, calcSubdomains2D, calcSubdomains3D", "src/ASM/ASMs3D.C: connectBasis"]}
{"id": "C68", "title": "Tensor operations agree with matrix algebra", "statement": "In one, two and three dimensions the tensor classes do what the operations of matrix algebra say, in each of the storage forms (full, symmetric, symmetric plane with the component 33): components, sums, products with tensors and vectors, outer product, transposition, symmetric part, cyclic shift, trace, determinant, transformation, Cauchy-Green tensors, norms and the von Mises value. The inverse is the inverse whenever the determinant exceeds the tolerance, otherwise the tensor is unchanged and zero is returned. The principal values are the eigenvalues with multiplicity, sorted if asked for, unless the deviator is negligible. The tensor of three angles is the rotation about their axis by their length and its rotation vector is the vector of angles up to a half turn; tensors made from a normal or from two tangents are right-handed orthonormal local axes with the given directions. The routine for principal directions returns orthonormal directions, in whose coordinates the tensor has the returned values on the diagonal.", "quantifier": "all tensors, vectors and angles", "why_tests_cant": "Identities over real tensors; tests compare a few literals in three dimensions.", "anchors": ["src/Utility/Tensor.C: Tensor, SymmTensor, inverse, principal, rotVec, transform, rightCauchyGreen, vonMises", "src/Utility/Tensor.h: index"]}
{"id": "C69", "title": "Solution norms are sums over the elements", "statement": "If no norm group is empty: every global norm is the final operation (none, absolute value or square root with sign) applied to the sum of everything the integrand adds to it over all elements, boundary terms and loops (plus the external energy for the second norm of the first group); every element norm is the final operation applied to the sum of the contributions of that element. The global norms are the same whether the element norms are stored or not, and neither depends on the order of the contributions. With the square root and non-negative contributions the square of a global norm is the sum of the squares of the element norms. Norm j of group k is found at the row of the element norms given by the sizes of the groups before it. Resultant forces are the sums of the element forces.", "quantifier": "all groups of norms, meshes and sequences of element contributions", "why_tests_cant": "Sums over arbitrarily many elements and groups, in any order; tests check a few norm values.", "anchors": ["src/ASM/GlbNorm.C: GlbNorm::assemble, applyFinalOp, ~GlbNorm", "src/SIM/SIMbase.C: solutionNorms", "src/ASM/IntegrandBase.C: addBoundaryTerms, ForceBase::assemble"]}
{"id": "C70", "title": "Adaptive refinement selects the largest errors and stops at its limits", "statement": "The elements (or basis functions) selected for refinement are different ones and none of the others has a larger error. Without a threshold they are the given percentage of all, rounded up; with the symmetrized type also all others with nearly the same error as the last one; with a threshold exactly those with an error above the given percentage of the largest, average or smallest error, or equal to it except for the first element; with a share of the total error the smallest number of largest errors with this share, and those that tie with the next one. Errors of functions shared by patches are the sums over the patches. Refinement takes place only if the step, the number of unknowns, the condition number and the estimated error (relative to the reference norm) have not reached their limits. The adaptive loop ends after at most the maximum number of steps.", "quantifier": "all errors, percentages, limits and behaviours of the solver", "why_tests_cant": "Holds for every list of errors, including ties, and every sequence of outcomes; tests mark a few lists.", "anchors": ["src/SIM/AdaptiveSetup.C: calcRefinement, errorLimits, printNorms", "src/SIM/SIMgeneric.C: getReferenceNorm", "src/SIM/AdaptiveSIM.C: adaptMesh", "Apps/Utils/SIMSolverAdap.h: solveProblem"]}
{"id": "C71", "title": "Functions of time and space report their own derivatives", "statement": "A piece-wise linear function takes the value of its table at each abscissa, is on the straight line between neighbouring points (never dividing by zero) and constant outside. Away from kinks and jumps, the derivative reported by a function of one argument is the derivative of its value; for functions of a point, directions 1, 2, 3 are the partial derivatives in space, direction 4 the derivative in time (rotations and products with a time dependent space factor excepted), the gradient and Hessian hold the first and second partial derivatives and the Hessian is symmetric. Quadratic, rotation, step, ramp and interpolated functions have their documented shape. A function that says it is zero vanishes (tables within a tolerance); one that says it is constant does not vary in time (step and Dirac functions excepted), so prescribed values reported as not time dependent stay the same, and the tangent coefficients are the time derivatives of the prescribed values.", "quantifier": "all tables, parameters, points and times", "why_tests_cant": "Statements about derivatives and values at every real argument; tests sample a few points.", "anchors": ["src/Utility/Functions.C: LinearFunc, LinVecFunc, RampFunc, SpaceTimeFunc, QuadraticXFunc, LinearRotZFunc, Interpolate1D", "src/Utility/Function.h: Function::isConstant, RealFunc::gradient, hessian, timeDerivative", "src/ASM/ASMbase.C: hasTimeDependentDirichlet, updateDirichlet"]}
{"id": "C72", "title": "Weak operators add the forms they are named after", "statement": "Each operator of the library of weak forms, called at an integration point with any element matrix or vector of matching size, succeeds and adds exactly the weight times the named form: mass (v,u), Laplacian (grad v, grad u) with the stress term (grad v, grad u transposed) on request, Laplacian with a coefficient matrix or diagonal, divergence and gradient as each other's negative transpose, advection and convection in convective, conservative and skew form, sources and the residuals, for any number of functions and components, arranged component by component within each node. The skew form is the mean of the other two, the convection matrix is the exact tangent of the convection residual in all three forms, and the Laplace residual is the negative of the Laplace matrix times the field. The operators for one basis per component add the same forms to the addressed blocks and leave the other blocks alone. Exceptions, each shown by an example: the block convection in conservative and skew form, the block Laplacian when the index table does not number the diagonal blocks first, and the advection residual, which uses the transposed gradient.", "quantifier": "all numbers of functions, directions and components, all values, gradients, weights, scales, velocity fields and initial element matrices and vectors", "why_tests_cant": "The result is a statement on bilinear forms for all sizes and values; tests use one element with ones.", "anchors": ["Apps/Utils/EqualOrderOperators.C: EqualOrderOperators::Weak, EqualOrderOperators::Residual", "Apps/Utils/CompatibleOperators.C: CompatibleOperators::Weak, CompatibleOperators::Residual"]}
{"id": "C73", "title": "Block element matrices", "statement": "An element matrix of a coupled problem is put together from blocks. For any number of blocks, of bases shared by the blocks, of components and of nodes, and for the calls that set it up in any order of the blocks, every call reports success, the blocks get the right sizes, and the degrees of freedom are numbered one to one: basis by basis, node by node, within a node in the order of the blocks. Whatever is put in the blocks afterwards, the entry of the element matrix for two degrees of freedom is that of their block, or, where only the transposed block is stored, that entry with the sign of the symmetry flag, or zero; the element vector likewise. Repeated requests return the same. Exceptions, each shown by an example: with three or more blocks and exactly all blocks above the diagonal the off-diagonal sizes are wrong; the position just past the last matrix is not refused; giving a size twice breaks the numbering.", "quantifier": "all numbers of blocks, bases, components and nodes, orders of the calls, subsets of stored blocks, symmetry flags and block contents", "why_tests_cant": "The numbering must be one to one and every entry in its place for every arrangement of blocks; tests use two arrangements.", "anchors": ["src/ASM/BlockElmMats.C: BlockElmMats::redim, redimOffDiag, finalize, getNewtonMatrix, getRHSVector"]}
{"id": "C74", "title": "The L2-projection finds the nearest field", "statement": "Whatever the elements, integration points, weights (not negative), basis functions and functions to be projected: if the equation solver returns a solution, the projection (both versions) gives for every component of the function the field nearest to it; the error is orthogonal to all fields, and no other nodal values give a smaller distance. Nodes where the basis functions vanish (first version: nodes in no active element) get zero. A function that already is such a field is reproduced. The results form one matrix with a row per component and a column per node; with several functions each gets the rows belonging to it; enforced corner values replace the columns of the corner nodes and nothing else. If the solver fails, so does the projection. The values of an element are taken at its own points of the tensor grid, in the order of the loops, when all directions have the same number of points. Exceptions, each shown by an example or an equivalence: with different numbers of points per direction the wrong values are taken; explicit functions are evaluated at wrong parameters unless the parameter domain begins at zero; with several threads a node in no element makes the projection fail.", "quantifier": "all meshes, numbers of nodes, components and functions, basis function values, weights, function values, threads or not, and all solvers returning solutions", "why_tests_cant": "That the result is the nearest of all fields quantifies over infinitely many fields and all meshes; tests project one function on one mesh.", "anchors": ["src/ASM/GlbL2projector.C: ASMbase::L2projection, ASMbase::globalL2projection, GlbL2::evalInt, GlbL2::solve, L2GlobalInt::assemble, L2FuncIntegrand::evaluate", "src/ASM/ASMs2Drecovery.C: ASMs2D::assembleL2matrices", "src/ASM/ASMs3Drecovery.C: ASMs3D::assembleL2matrices", "src/LinAlg/SparseMatrix.C: SparseMatrix::preAssemble, SparseMatrix::assemble", "src/LinAlg/SystemMatrix.C: StdVector::assemble, SystemMatrix::solve"]}
{"id": "C75", "title": "The time stepping driver saves every step, and a restart continues as if there had been no interruption", "statement": "Exit codes: a run that ends returns 2 if the model or initial state could not be saved, 0 if there was no further step, 3 if a step could not be solved, 4 if a step could not be saved; all steps carried out before are saved in order, after the initial state of a multi-step simulation. The stationary driver reports the first of its stages that failed, and nothing is written after it. The result file gets one level for every nd-th step, numbered from zero: level k is the state after step k*nd; the restart file one level for every stride-th step. If the process is interrupted at any moment after level l of the restart file is written (also in the middle of writing a later level), a new process with the same input that restarts from level l ends with the same code, saves the remaining steps with the same times, step sizes, step numbers and solutions, completes the restart file to the one of the uninterrupted run, and writes the remaining levels of the result file under the same numbers, when the restart interval is a multiple of the result interval. Restart level zero takes the last level in the file. Data already in the restart file is never replaced. Exceptions, shown by example: other restart intervals put the wrong steps into the levels of the result file; a new simulation keeps the restart data of an earlier one.", "quantifier": "all simulators, numbers of steps, intervals, restart levels, and all points of interruption between two items of the restart file", "why_tests_cant": "The claim ranges over all crash points and all later restarts, and all simulators; a test restarts one simulation at one step.", "anchors": ["Apps/Utils/SIMSolver.h: SIMSolverStat::solveProblem, SIMSolver::solveProblem, SIMSolver::advanceStep, SIMSolver::saveState, SIMSolver::handleDataOutput, SIMSolver::restart", "src/Utility/DataExporter.C: DataExporter::dumpTimeLevel", "src/Utility/HDF5Restart.C: HDF5Restart::dumpStep, HDF5Restart::writeData, HDF5Restart::readData", "src/SIM/TimeStep.C: TimeStep::multiSteps, TimeStep::serialize, TimeStep::deSerialize"]}
{"id": "C76", "title": "The adaptive time stepping driver keeps time, solution and mesh together", "statement": "Adaptive time stepping predicts some steps, estimates the error, refines the mesh, goes back to the beginning of the prediction and repeats this until the mesh is not changed any more or a limit of cycles is reached; then the steps are carried out and their results are saved. For a simulator that stores and restores its solution: whatever the refinements are, every solution is computed from the solution of the step before, and each saved state with step number n has been advanced exactly n times, at the time of step n in the step table of the input; the saved step numbers never decrease and between two of them at most predict_steps-1 numbers are left out; a geometry is written to the visualization file whenever the mesh changed, before any results on it, so results are always shown on their own mesh. Exit codes: 0 when the end time or step limit is reached, and a specific positive number for each stage that failed. With positive numbers of prediction and forward steps and a step table, the simulation ends. Reading the restart file back, the mesh found for a time level is the mesh of the solution stored in that level, for levels after the first one and at most one prediction cycle. Exceptions, shown by example: without a step table (the usual input) time is not set back together with the step number; a step limit reached while predicting saves results under the number of the next step; meshes accepted in a later cycle are forgotten in the restart file; the first restart level never leads to the stored mesh; a failure to advance the solution is ignored; zero prediction or forward steps never end.", "quantifier": "all simulators, parameters, step tables, histories of refinements", "why_tests_cant": "The claims hold for every sequence of refinement decisions over any number of steps; tests run one adaptive simulation.", "anchors": ["Apps/Utils/SIMSolverTS.h: SIMSolverTS::solveProblem, SIMSolverTS::parse, SIMSolverTS::dumpResults", "src/SIM/TimeStep.C: TimeStep::reset, TimeStep::increment, TimeStep::finished", "src/SIM/SIMinput.C: SIMinput::restartBasis", "src/Utility/HDF5Restart.C: HDF5Restart::readData, HDF5Restart::writeBasis"]}
{"id": "C77", "title": "Staggered iterations of two coupled simulators follow their protocol, and relaxation gives the documented iterates", "statement": "A semi-implicitly coupled time step solves both simulators in the requested order in each iteration, then checks convergence, then relaxes the solution (from the second iteration on, if enabled). A step that succeeds consists of complete iterations only, none of which failed or diverged; it stops at the first iteration whose check says converged, or after max+1 iterations; post-processing is done exactly once for each simulator, at the end. A step fails with the first simulator or check that fails or diverges, and nothing is done after it. The default check says converged if and only if both have converged in the same iteration. With a fixed factor w the relaxed solution is the weighted mean of the solutions of all iterations; for a fixed point problem x=g(x) the iterates are (1-w)x+w g(x) after an unrelaxed first one; for affine problems the error is multiplied by (1-w)I+wA in each iteration; without relaxation it is plain iteration. Aitken's factor minimizes the extrapolated residual; for scalar affine problems the third iterate is exact. Equal solutions are not changed by relaxation. The outcome does not depend on relaxation data left behind by earlier time steps. Exceptions, shown by example: a step that has not converged succeeds all the same; a negative maximum succeeds without solving anything; Aitken's factor after the first iteration is off by the initial factor; an unchanged residual gives zero divided by zero; the solution is relaxed also after convergence, so the final solution is not the converged one.", "quantifier": "all pairs of simulators, numbers of iterations, sequences of statuses, sizes and values of vectors and matrices", "why_tests_cant": "The claims range over every sequence of convergence statuses and every coupled problem; a test runs one problem.", "anchors": ["Apps/Utils/SIMCoupledSI.h: SIMCoupledSI::solveStep, SIMCoupledSI::checkConvergence, SIMCoupledSI::getMaxit, SIMCoupledSI::getAitkenResidual, SIMCoupledSI::setRelaxedSolution"]}
{"id": "C78", "title": "The basis function cache gives what an evaluation would give", "statement": "The values handed out for an integration point of an element are those of the functions of the requested basis at that point, with all derivatives up to the order asked for by the last initialisation, whatever the caching policy (none, ahead, on the fly, full) and whatever initialisations, requests, clearings, changes of integrand and changes of the number of threads have gone before, as long as the Gauss rules and the reduced integration do not change without a clearing. Values are kept at the position of the point in the grid of all points, so no two points share a place. At the points of reduced integration this holds for the functions and their first derivatives. The parameters of a point are its place in the knot span. Clearing all the caches of a patch is a new start, also for other Gauss rules. A history that asks only for what exists never accesses anything outside an array. Exceptions, shown by example: a Lagrange cache initialised for a projection after an integrand without derivatives has none; reduced integration required later is not set up; a missing Gauss rule is not reported; second derivatives at reduced points depend on the policy; clearing the first basis takes the quadrature from the others; changing the number of threads before the first assembly can leave a patch without quadrature.", "quantifier": "all patches (knots, number of elements), Gauss rules, bases, caching policies, and all finite histories of operations", "why_tests_cant": "A stale or misplaced entry only shows in particular histories and particular sizes; the claims quantify over all of them.", "anchors": ["src/ASM/BasisFunctionCache.C: BasisFunctionCache::init, BasisFunctionCache::clear, BasisFunctionCache::getVals, BasisFunctionCache::getParam, BasisFunctionCache::gpIndex, BasisFunctionCache::resizeThreadBuffers", "src/ASM/ASMs2D.C: ASMs2D::BasisFunctionCache", "src/ASM/ASMs3D.C: ASMs3D::BasisFunctionCache", "src/ASM/ASMs2DLag.C: ASMs2DLag::BasisFunctionCache", "src/ASM/ASMs3DLag.C: ASMs3DLag::BasisFunctionCache", "src/ASM/ASMs2DmxLag.C: ASMs2DmxLag::BasisFunctionCache"]}
{"id": "C79", "title": "The multi-patch generator makes a connected box", "statement": "For all subdivisions of at least one patch per direction, sizes, scale and corner, the generated patches are linear, fill the box from the corner with the given size without overlap, and are numbered with x fastest. The topology that is set up connects each pair of coinciding patch sides exactly once, with the upper side as master and orientation 0; in a periodic direction it connects the lower with the moved upper side of the domain, or closes every patch on itself if there is one patch only; nothing else is connected. A connection is used by a process that has both patches and is recorded as ghost connection otherwise. The sets of sides contain exactly the sides of local patches that lie on that side of the domain, the boundary set the sides shared with no patch, the vertex sets the domain corners, the inner set the patches without such a side. The edge sets of volumes number the edges otherwise than the patches do: with more than one patch, the frame set names lines that are not on the edges of the domain.", "quantifier": "all numbers of patches and sizes in an ordered field, all distributions of patches on processes, all periodicities", "why_tests_cant": "the numbers of patches, sizes, periodicities and distributions are unbounded; tests compare a few small models with recorded output, and record the wrong edges too", "anchors": ["src/SIM/MultiPatchModelGenerator.C: createG2, createTopology, createTopologySets", "src/SIM/SIMbase.C: getLocalPatchIndex", "src/SIM/SIM1D.C, SIM2D.C, SIM3D.C: addConnection / connectPatches"]}
{"id": "C80", "title": "Elements cut by immersed boundaries are integrated with the quadtree of the geometry", "statement": "For all elements, geometries, rules and depths the integration points of an element are the Gauss points, inside the geometry, of the cells of the quadtree that divides a cell if the inside-outside test differs between the points near its corners, at most the given number of times; the cells tile the element without overlap, the points lie strictly inside the element and have positive weights; an element wholly inside is integrated exactly to the degree of the rule, one wholly outside has no points, and the weights never exceed the area. The test of a geometry with any list of circular and oval holes is positive exactly outside all of the closed holes. The points are mapped to the knot span of their element; the nodes that are fixed are those that no element with points contains; the interfaces that are stabilised are the east and north ones next to an intersected element. Holes seen by no test point are ignored, cut elements with few remaining points are not regarded as intersected, and the status is that of the last element.", "quantifier": "all quadrilaterals, inside-outside functions, hole lists, Gauss rules, depths, meshes", "why_tests_cant": "elements, holes and depths are unbounded, and the exactness is a statement on all polynomials; tests compare the number of points of one mesh", "anchors": ["src/ASM/ImmersedBoundaries.C: Immersed::getQuadraturePoints", "src/ASM/IBGeometries.C: Hole2D, Oval2D, PerforatedPlate2D, GeoFunc2D", "src/ASM/ASMs2DIB.C: addHole, setGeometry, generateFEMTopology, isIntersected, Intersected::hasContribution"]}
{"id": "C81", "title": "Prescribed values that change with time are imposed on the increments", "statement": "For every consistent model, after any number of updates of the constant terms of its constraints: evaluating the boundary functions changes nothing in the model but constant terms; the constant term of a constraint with a property code becomes the value (or the time derivative) of the scalar function, or of the component of the vector function, at the coordinates of the slave node and the given time, and the evaluation fails exactly for unknown nodes and codes. The update of the constraint tables always succeeds, keeps everything but the coefficients, depends on no earlier update, and each vector of equation values is expanded into an increment that vanishes in the fixed DOFs and in each other slave equals the value without constant terms plus the prescribed value less the previous one (nothing if the prescribed value is zero or no previous solution is given). A DOF without masters hence has the prescribed value after the step, unless this is zero, in which case it keeps its old value; the new solution obeys all constraints exactly under the stated conditions on the previous one.", "quantifier": "all patch models with acyclic constraint chains, all sequences of updates, all functions, times, previous solutions and solution vectors", "why_tests_cant": "the chains, models and histories are unbounded and the solution vectors range over a field; a test runs one load history", "anchors": ["src/ASM/SAMpatch.C: SAMpatch::updateConstraintEqs", "src/ASM/ASMbase.C: ASMbase::updateDirichlet", "src/SIM/SIMbase.C: SIMbase::updateDirichlet"]}
{"id": "C82", "title": "Superelements: condensation and recovery are exact, and transformation to global axes is a congruence", "statement": "For every editable square system matrix, right-hand side, and set of retained nodes whose equations are free, distinct, fewer than all and include the last equation, and every solver that solves the internal equations: splitting gives the four sub-matrices; static condensation succeeds, and the solutions of the full system are exactly the vectors recovered from the solutions of the reduced system. For every vector of retained values the recovered vector contains them, satisfies all internal equations, leaves as residuals of the retained equations those of the reduced system, and is the only such vector; a symmetric matrix is reduced to a symmetric one. Specified DOFs among the retained ones, an empty group of equations, and a matrix that is not square are refused. The transformation to global axes replaces the matrix by TAT' and the vector by Tb (or T'b), with T the nodal matrix repeated on the diagonal; nodes are rotated and moved; for rotations, work and equilibrium are the same in both systems, and recovery in global axes is recovery in local axes between the two transformations.", "quantifier": "all system matrices reachable by matrix operations, all divisions into internal and retained equations, right-hand sides, retained values, nodal matrices and numbers of nodes", "why_tests_cant": "dimensions are unbounded and the entries range over a field; a test condenses one substructure", "anchors": ["src/LinAlg/SparseMatrix.C: SparseMatrix::split", "src/ASM/AlgEqSystem.C: AlgEqSystem::staticCondensation, AlgEqSystem::recoverInternals", "src/LinAlg/MatVec.C: utl::transform", "src/ASM/ASMsupel.C: ASMsupel::transform", "src/SIM/SIMsupel.C: SIMsupel::recoverInternalDOFs"]}
{"id": "C83", "title": "Chebyshev functions are the expansions they claim to be, their derivatives are exact, and Lagrange interpolation reproduces polynomials", "statement": "For every polynomial number and point, the two kinds of Chebyshev polynomials and their derivatives are those of the Chebyshev polynomials (cos n-theta at cos theta). A function read from a file is the tensor-product expansion with the coefficients of the file, the first direction running fastest, on the box mapped to [-1,1]; the first, mixed and second derivatives it returns are the derivatives of that expansion at the point (the second derivative along one axis: at the end of the domain if that is closer than the tolerance). Gradients and Hessians of vector and tensor functions hold these derivatives for all components in column order. Lagrange interpolation on different grid points gives the only polynomial of degree below the number of points through the data, reproduces all such polynomials everywhere, and the interpolation matrix applies it.", "quantifier": "all polynomial degrees, points, numbers of coefficients, coefficients, domains, directions, grids and data", "why_tests_cant": "degrees and grid sizes are unbounded and derivatives are limits; a test compares a few values", "anchors": ["src/Utility/Chebyshev.C: Chebyshev::evalPol1, evalPol2, evalDer1, evalDer2, eval2Der1, ChebyshevFunc, ChebyshevVecFunc, ChebyshevTensorFunc", "src/Utility/LagrangeInterpolator.C: LagrangeInterpolator"]}
{"id": "C84", "title": "Modal dynamics is the dynamics of the structure restricted to its modes", "statement": "For every structure and mass-orthonormal modes numbered in order, every load, step size and Newmark parameters with beta > 0, and after any earlier calls with the same parameters: the assembled diagonal system has exactly those solutions for which the expanded motion given by Newmark's corrector is in dynamic equilibrium with the load as far as forces that work in a mode go (fully if the modes are complete), with Rayleigh damping of the structure when that is switched on; it has exactly one solution. With beta = 0 the same holds for static equilibrium. Expansion of modal vectors gives the sum of the modes whatever was stored before; wrong dimensions give no solution. The frequency stored for a non-negative eigenvalue gives back the modal stiffness; a restart gives back number, frequency and shape of all modes.", "quantifier": "all structures, numbers of modes and degrees of freedom, mode shapes, loads, modal states, parameters and histories of calls", "why_tests_cant": "dimensions and histories are unbounded and the values range over a field; a test integrates one structure", "anchors": ["src/SIM/SIMmodal.C: SIMmodal::assembleModalSystem, SIMmodal::expandSolution, SIMmodal::saveModes, SIMmodal::restoreModes, SAMmodal", "src/SIM/SIMbase.C: SIMbase::systemModes, Mode::orthonormalize, Mode::computeDamping", "src/ASM/NewmarkMats.C: NewmarkMats"]}
{"id": "C85", "title": "A field function read from a result file uses the time level closest to the given time", "statement": "For every result file with at least two time levels at strictly increasing times, and every sequence of evaluations at times between the midpoint of the first two levels and that of the last two, in any order, the value is that of the data of the level whose time is closest. The same holds from time zero on for times that do not decrease. One evaluation returns a level exactly under the stated condition on the time, and the level returned is always the closest; otherwise the value is zero. With a fixed level all values are those of that level.", "quantifier": "all files with any number of levels, all sequences of evaluations, all times", "why_tests_cant": "the history of evaluations and the number of levels are unbounded, and the search starts where the previous one ended; a test reads a few times in order", "anchors": ["src/Utility/FieldFunctions.C: FieldFuncHDF5::findClosestLevel, FieldFuncHDF5::load, FieldFunction::evaluate", "src/Utility/FieldFunctions.h: FieldFuncHDF5, FieldFuncBase::FIXED_LEVEL", "src/Utility/HDF5Reader.C: HDF5Reader::readDouble"]}
{"id": "C86", "title": "Closing a patch identifies its opposite boundaries, and collapsing an edge or face makes it degenerate", "statement": "Closing any sequence of directions of a structured patch with one to nine unknowns per node succeeds, and gives each node the smallest number among those that coincide with it when the closed directions are identified at their ends; if the numbers were different before, two nodes get the same number exactly if they coincide that way, whatever the order and repetitions. Nodes outside the basis keep their numbers. Collapsing an edge of a quadrilateral patch succeeds exactly if its nodes are co-located with the first, gives the first node the smallest number of the edge and each further node the smallest one up to itself, so that the edge becomes one node exactly if no node of it had a lower number than its first two. Collapsing a face of a hexahedral patch numbered in ascending order into one of its edges, or a vertex, makes two of its nodes one exactly if they have the same position along that edge. With a swapped third direction, faces 5 and 6 are not collapsed into their edges.", "quantifier": "all grid sizes, numbers of unknowns, numberings, sequences of directions, faces and edges", "why_tests_cant": "the sizes of the grids and the sequence of operations are unbounded; a test closes one small patch", "anchors": ["src/ASM/ASMs1D.C: ASMs1D::closeBoundaries", "src/ASM/ASMs2D.C: ASMs2D::closeBoundaries, ASMs2D::collapseEdge", "src/ASM/ASMs3D.C: ASMs3D::closeBoundaries, ASMs3D::collapseFace", "src/ASM/ASMbase.C: ASMbase::makePeriodic, ASMbase::collapseNodes, ASMbase::mergeNodes"]}
{"id": "C87", "title": "Input files are read with their include files in place and parsed in the documented order", "statement": "For every set of input files: a file whose include files all exist and are at most ten within each other is read as the document with every include tag, at any depth, replaced by the root element of its file; with more levels the result contains include tags, and it is free of them exactly if ten levels are enough. A missing file, or one without the root element simulation, is refused before anything is parsed. The top-level elements are then parsed one after the other until one fails, each exactly once: first the first element with each of the prioritised tags in the order of these tags, then all other elements in the order of the file. If all include files are missing, the document is read with the include tags in it and without an error.", "quantifier": "all documents of any size and depth, all sets of include files, all lists of prioritised tags, all parsers", "why_tests_cant": "the nesting of elements and include files is unbounded, and the order must hold for every arrangement of tags; tests read a few files", "anchors": ["src/SIM/XMLInputBase.C: IncludeInjector, XMLInputBase::loadFile, XMLInputBase::readXML, XMLInputBase::handlePriorityTags"]}
{"id": "C88", "title": "A coupled simulator sees the current values of the fields it depends on", "statement": "For every history of calls registering fields and dependencies, filling named fields and writing to solution vectors: a simulator asking for a dependent field gets the current values of the vector last registered with that name in the simulator of its first dependency on the name, and nothing if there is none; a field can be filled by name exactly if it is registered, and all dependent simulators see the new values. Before the assembly of a patch, the vectors of the integrand are given the values of the dependent fields in the nodes of this patch, node by node, the patch being that of the dependency or else that of the simulator, with the registered number of components or the given DOF layout; an empty field gives an empty vector, and a field of an interpolation basis of its own an interpolation field with the same values. This fails exactly if a field used by the integrand is not registered, with the fields before it extracted.", "quantifier": "all histories of any length, all numbers of simulators, names, vectors, patches and nodes", "why_tests_cant": "the coupled simulators register in any order and change their vectors at any time; tests register one field", "anchors": ["src/SIM/SIMdependency.C: registerDependency, registerField, fillField, getField, getDependentField, getDependentPatch, extractPatchDependencies"]}
{"id": "C89", "title": "Several system matrices, vectors and scalars are the sums of the element contributions", "statement": "For every model, every number of system matrices, vectors and scalars, every assignment of right-hand-side vectors to matrices, and every distribution of the elements on threads: after one assembly round, each entry of each matrix is the sum over the elements of the bilinear form of the element matrix of the same number for the shape functions of the two equations (added to the earlier values if the matrices are not initialized), each entry of each vector is the sum of the work of the element vectors minus the terms of the prescribed values of all matrices linked with this vector (of the single matrix for the first vector if there is only one), and each scalar is the sum of the element scalars. Any order of the elements and any number of threads give the same. An assembly of right-hand sides only leaves the matrices as they are and gives the same vectors. Initialization gives zero matrices, keeps earlier vector values, and links a single matrix with the first vector. Systems are added entry by entry.", "quantifier": "all valid models, element lists of any length, all numbers of matrices, vectors, scalars and threads", "why_tests_cant": "mass, stiffness and load vectors are assembled together in many combinations and by any number of threads; tests assemble one of each", "anchors": ["src/ASM/AlgEqSystem.C: init, setAssociatedVector, initialize, assemble, finalize, add", "src/ASM/ElmMats.h: ElmMats", "src/LinAlg/DenseMatrix.C: assemble, add"]}
{"id": "C90", "title": "A block of visualization elements draws the elements put into it", "statement": "For every block of visualization elements of one type or of mixed types: after the block is sized and the nodes of the elements are set one after the other, the block stores exactly these elements, numbered 1, 2, ..., and all calls succeed. Asking for the elements with a given number of nodes gives exactly these, in order, each once. The nodes found for an element number are those of the element. The centre of an element is the mean of its corner points. Merging two blocks gives a block with the elements of the first followed by those of the second, with corners at the same positions, points closer than the tolerance being joined, and with the external numbers moved beyond the first block's. Removing an element of a block of one type leaves exactly the others with their numbers. The sphere and cylinder blocks refer to existing points only.", "quantifier": "all lists of elements of any sizes, all points and tolerances, all histories of setting, merging and removing", "why_tests_cant": "glyphs, immersed boundaries and mixed element types are merged and pruned in ways that depend on the input file; tests look at a few structured blocks", "anchors": ["src/Utility/ElementBlock.C: unStructResize, setNode, endOfElm, merge, getElements, getCenter, removeElement, SphereBlock, CylinderBlock", "src/Utility/ElementBlock.h: getElmIndex, getElmId"]}
{"id": "C91", "title": "Fourth-order tensors store and return their components", "statement": "For every fourth-order tensor in any number of dimensions: the components are stored in different places within the component vector, assigning a component changes exactly this one (for symmetric tensors also those with the first two or the last two indices interchanged), and a tensor made from a vector has the components of the vector with the first index running fastest. The created tensors have the scale where all four indices are equal, or (J) where the first two and the last two are equal, and zero elsewhere, so that J maps a second-order tensor to its trace times the identity and the other one to its diagonal. An assigned tensor equals its source whatever it was before, and assigned or added numbers go to the components with equal indices. Symmetric tensors are symmetric in the first and in the last two indices.", "quantifier": "all numbers of dimensions, component values, scales, indices and histories of assignments", "why_tests_cant": "the test compares the created tensors in up to three dimensions only; the constructors from vectors and the assignments are not tested", "anchors": ["src/Utility/Tensor4.C: Tensor4, SymmTensor4", "src/Utility/Tensor4.h: Tensor4, SymmTensor4"]}
{"id": "C92", "title": "A time history of eigenmodes is the given combination", "statement": "For every input of amplitudes and frequencies of eigenmodes, in any order and any number, and every sequence of time steps: the amplitude of each mode is the last one given for it, or zero; its angular frequency is 2\u03c0 times the last frequency given for it, or that of the eigenvalue solution; enough eigenvalues are asked for. The modes are scaled so that their largest entry is one in absolute value. In each step the displacement is the sum over the modes of the amplitude times the sine of the angular frequency times the time since the start of the simulation, times the mode.", "quantifier": "all inputs, modes, numbers of unknowns, time sequences and sine-like functions", "why_tests_cant": "inputs combine modes in any order and repeat them; there is no test of this simulator", "anchors": ["src/SIM/EigenModeSIM.C: parse, initSol, solveStep"]}
{"id": "C93", "title": "Nodal forces on a boundary are the sums of the element forces", "statement": "For every set of different nodes of a boundary, every number of force components and all elements assembled after an initialization: the force in each of these nodes is minus the sum over the elements of the element forces at this node, the force in any other node is zero, the force by index is that of the node with this index, and the total force is the sum over the nodes. The order of the elements does not matter. An element gives an error exactly if it does not exist, has no vector, or has no node on the boundary, and changes nothing then.", "quantifier": "all meshes, boundaries, element vectors, numbers of DOFs per node and orders of assembly", "why_tests_cant": "force resultants are requested for boundaries of any shape, with extra DOFs in some nodes; tests look at one patch", "anchors": ["src/ASM/GlbForceVec.C: initNodeMap, initialize, assemble, getForce, getTotalForce"]}
{"id": "C94", "title": "A sum of functions is their weighted sum or their maximum", "statement": "For every sequence of functions added to a sum: exactly those with the dimension of the first one are accepted, and refused ones change nothing. With positive weights the value in every point is the weighted sum of the values of the functions, without positive weights it is their largest value, for each component, and in both cases the order does not matter. One more function adds its weighted value or takes the maximum. The scalar value is the first component. The domain is the union of the domains, the type is the common one or none, and every function is told about a new patch.", "quantifier": "all sequences of functions, weights and dimensions, and all points", "why_tests_cant": "loads and boundary conditions are composed from any number of functions in any order; tests use two or three of them", "anchors": ["src/SIM/FunctionSum.C: add, getType, inDomain, initPatch, getValue, getScalarValue"]}
{"id": "C95", "title": "A nodal field as a function gives the values of the nodes, whatever was evaluated before", "statement": "For every model, nodal vector and sequence of evaluations: a point at a node gives the values of this node, provided that different nodes are further apart than the tolerances, and a point that carries its node index gives the values of this index, or of the index it is mapped to. Any value that is given belongs to a node near the point, and a point at a node is never missed. Points without node, or nodes beyond the end of the vector, give zero.", "quantifier": "all models, vectors, index maps and sequences of evaluations", "why_tests_cant": "the nodes found earlier are remembered and looked up with a tolerance; tests evaluate few points in one order", "anchors": ["src/SIM/NodeVecFunc.C: getPointIndex, evaluate, isZero"]}
{"id": "C96", "title": "Each output stream gets exactly what is written while it is connected", "statement": "For every sequence of calls of a log stream: each piece of data is written to the main stream exactly if the process is the printing one, and to each extra stream as often as it is subscribed at this time; nothing else is written, and the order is that of the calls. Precision and flags are set for all connected streams, and the result allows for restoring them.", "quantifier": "all sequences of calls, streams and processes", "why_tests_cant": "streams are added, removed and replaced at any time by applications, also the same stream more than once; tests look at fixed sequences", "anchors": ["src/Utility/LogStream.C: operator<<, addExtraLog, removeExtraLog, precision, flags", "src/Utility/LogStream.h: write"]}
{"id": "C97", "title": "Control messages call the right callbacks", "statement": "For every sequence of registrations, messages and polls: a message of less than 2048 bytes that is polled before the next one is sent calls the callbacks for its elements in their order, each with its element, where the callback of a name is the one registered first; unknown elements and illegal messages call nothing. Nothing is called twice, and a pipe that is not open does nothing.", "quantifier": "all sequences of registrations, messages and polls", "why_tests_cant": "messages come at any time from outside; tests cannot cover their timing and sizes", "anchors": ["src/Utility/ControlFIFO.C: registerCallback, poll"]}
{"id": "C98", "title": "Nodes of a Lagrange patch are moved by exactly the displacements and shifts", "statement": "For every sequence of displacements and shifts of the origin: each node is at its first position plus the sum of its movements, whatever their order; a displacement of wrong size is refused and changes nothing. The geometric center of an element is the mean value of its nodes and is shifted with the origin. A nodal field is accepted exactly if the vector has the same number of values for each node, and gives each node its values.", "quantifier": "all numbers of nodes, dimensions, vectors and sequences of updates", "why_tests_cant": "updated-Lagrangian simulations move the nodes in each step; tests make one update", "anchors": ["src/ASM/ASMLagBase.C: nodalField, getGeometricCenter, updateCoords, updateOrigin"]}
