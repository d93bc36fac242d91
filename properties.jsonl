{"id": "C01", "title": "Sparsity pattern is the set of added pairs", "statement": "After any sequence of add(I,J) calls on a fresh sparsity pattern, freeze() returns CSR arrays (indptr, indices) with indptr[0]=0, indptr non-decreasing, row i equal to the strictly increasing list of exactly those J for which (i,J) was added. The result does not depend on order or repetition of the add calls. It also holds across the switch from linear to binary search at 20 entries per row. (No row receives more than 2^16 - initial_length distinct columns, the range of the 16 bit row counters, and initial_length > 0; see C49.)", "quantifier": "all numbers of rows, all finite sequences of add calls with in-range rows, all row lengths", "why_tests_cant": "Row length, insertion order and duplication are unbounded, and the search routine switches algorithm at 20 entries; a test samples a few insertion orders.", "anchors": ["base/PyNucleus_base/sparsityPattern.pyx: sparsityPattern.add, findIndex, freeze"]}
{"id": "C02", "title": "Tuple dictionary behaves as a finite map", "statement": "For every history of enterValue, getValue, removeValue calls on an edge dictionary with default flags, getValue returns the value of the earliest enterValue since the last removal of the key (or the invalid value when absent); enterValue returns the value that is stored after the call; nnz is the number of keys present. (Histories in which no row holds more than 2^8 - length_inc keys at once, the range of the 8 bit row counters; beyond that see C49.)", "quantifier": "all operation histories, all keys, all values, all numbers of rows", "why_tests_cant": "The number of histories is infinite, and correctness depends on sorted insertion and array shifts at every position.", "anchors": ["base/PyNucleus_base/tupleDict_{VALUE}.pxi: enterValue, removeValue, getValue"]}
{"id": "C03", "title": "Delete-on-hit dictionary keeps exactly the odd keys", "statement": "With deleteHits=True, after any sequence of enterValue calls a key is stored iff it was entered an odd number of times, and a call that hits returns the stored value and removes it. With logicalAndHits the stored value of a key is the bitwise or of all values entered. (Histories in which no row holds more than 2^8 - length_inc keys at once, the range of the 8 bit row counters; beyond that see C49.)", "quantifier": "all sequences of enterValue calls, all keys, all values", "why_tests_cant": "Parity over unbounded histories; used to find interior faces and boundary faces.", "anchors": ["base/PyNucleus_base/tupleDict_{VALUE}.pxi: enterValue (deleteHits, logicalAndHits)", "fem/PyNucleus_fem/meshCy.pyx: faceVals.enterValue"]}
{"id": "C04", "title": "Iteration over the dictionary lists every key once in order", "statement": "startIter followed by repeated next() yields every stored (key, value) exactly once in lexicographic key order and then reports the end; getData returns the same list. (Histories in which no row holds more than 2^8 - length_inc keys at once, the range of the 8 bit row counters; beyond that see C49.)", "quantifier": "all reachable dictionary states", "why_tests_cant": "Empty rows at the start, middle and end interact with the cursor; the number of layouts is unbounded.", "anchors": ["base/PyNucleus_base/tupleDict_{VALUE}.pxi: startIter, next, getData"]}
{"id": "C05", "title": "Index set operations are set operations", "statement": "union, inter and setminus of sorted array index sets return a strictly sorted array whose members are exactly the set union, intersection and difference; inSet decides membership and position returns the index of the member, for sets below and above the 20 element search threshold.", "quantifier": "all pairs of strictly sorted index arrays of any length, all query values", "why_tests_cant": "Merge loops have tail cases for every relative ordering and length; search has two implementations.", "anchors": ["base/PyNucleus_base/tupleDict.pyx: arrayIndexSet.union, inter, setminus, inSet, position"]}
{"id": "C06", "title": "Bit array is a set of indices and its iterator is safe", "statement": "After any sequence of set(k) calls, inSet(k) holds iff k was set, getNumEntries is the number of distinct set indices, and iterating lists them in increasing order without touching memory outside the bit array.", "quantifier": "all sequences of set calls, all indices", "why_tests_cant": "Word boundaries, high bits and empty words combine without bound; the out-of-bounds read only shows on particular patterns.", "anchors": ["base/PyNucleus_base/tupleDict.pyx: bitArray.set, inSet, getNumEntries, bitArrayIterator.step"]}
{"id": "C07", "title": "Product iterator visits every multi-index once", "statement": "For m >= 1 and dim >= 1, productIterator(m, dim) after reset yields exactly m^dim tuples, all entries in [0,m), each tuple exactly once, in lexicographic order with the last index fastest, then returns False.", "quantifier": "all m >= 1 and all dim >= 1", "why_tests_cant": "Carry propagation through arbitrarily many digits.", "anchors": ["base/PyNucleus_base/intTuple.pyx: productIterator.step"]}
{"id": "C08", "title": "CSR matvec is the matrix-vector product", "statement": "For a CSR matrix (with unsorted or repeated column indices allowed), matvec(x,y) sets y_i to the sum over stored entries of row i of data*x[col]; matvecTrans(x,y) sets y to the product with the transposed matrix; the pair satisfies <y, A x> = <A^T y, x>. This holds for real and complex scalars.", "quantifier": "all shapes, sparsity patterns, data and vectors", "why_tests_cant": "A test fixes a matrix; the statement is for every pattern including duplicates and empty rows.", "anchors": ["base/PyNucleus_base/CSR_LinearOperator_{SCALAR}.pxi: matvec, matvecTrans", "base/PyNucleus_base/opt_false_mkl.pxi: spmv"]}
{"id": "C09", "title": "CSR transpose", "statement": "transpose(A) is a CSR matrix whose (j,i) entry equals the (i,j) entry of A for all i,j, whose rows are sorted by column, and transposing twice gives a matrix with the same entries as A.", "quantifier": "all CSR matrices with in-range column indices", "why_tests_cant": "Counting sort with an in-place shifted row pointer; must hold for every pattern including duplicates and empty rows/columns.", "anchors": ["base/PyNucleus_base/linear_operators.pyx: transpose"]}
{"id": "C10", "title": "Sorting column indices preserves the matrix", "statement": "sort_indices leaves every matrix entry unchanged and makes every row non-decreasing in column; the returned flag says whether the rows were non-decreasing before; afterwards isSorted reports True exactly if no row repeats a column.", "quantifier": "all CSR matrices", "why_tests_cant": "Depends on the joint permutation of two arrays for every row length and order.", "anchors": ["base/PyNucleus_base/CSR_LinearOperator_{SCALAR}.pxi: sort_indices, isSorted"]}
{"id": "C11", "title": "Symmetric storage round trip", "statement": "For a symmetric CSR matrix, to_sss followed by matvec gives the same result as the CSR matvec; to_csr of the symmetric storage has the same entries; getEntry is symmetric.", "quantifier": "all symmetric CSR matrices and vectors", "why_tests_cant": "Scatter-gather loop over the lower triangle must agree for every pattern.", "anchors": ["base/PyNucleus_base/SSS_LinearOperator_{SCALAR}.pxi: matvec, to_csr, getEntry", "base/PyNucleus_base/CSR_LinearOperator_{SCALAR}.pxi: to_sss"]}
{"id": "C12", "title": "Entry access laws of CSR matrices", "statement": "For an existing entry of a sorted CSR matrix, setEntry then getEntry returns the value set, addToEntry adds to it, and no other entry changes. For positions outside the pattern the call is rejected and nothing changes.", "quantifier": "all sorted CSR matrices, all positions, all values", "why_tests_cant": "Search has two implementations depending on row length; frame condition ranges over all other positions.", "anchors": ["base/PyNucleus_base/CSR_LinearOperator_{SCALAR}.pxi: setEntry, addToEntry, getEntry"]}
{"id": "C13", "title": "Dropping entries in place", "statement": "eliminate_zeros keeps all matrix entries and removes exactly the explicit zeros; dropping rows/columns in place of a sparse graph keeps exactly the entries in the retained rows/columns.", "quantifier": "all CSR matrices and all index subsets", "why_tests_cant": "In-place compaction with a moving write cursor for every pattern.", "anchors": ["base/PyNucleus_base/CSR_LinearOperator_{SCALAR}.pxi: eliminate_zeros", "base/PyNucleus_base/sparseGraph.pyx: dropRowsInPlace, dropColsInPlace"]}
{"id": "C14", "title": "Edge and face keys are lossless", "statement": "encode_edge/decode_edge and encode_face/decode_face are mutually inverse on vertex numbers below 2^31 so distinct sorted edges/faces have distinct keys; sortEdge/sortFace return the sorted permutation of their arguments so the key does not depend on vertex order.", "quantifier": "all vertex numbers in [0, 2^31) and all orders of the vertices", "why_tests_cant": "2^62 or more keys.", "anchors": ["fem/PyNucleus_fem/meshCy.pyx: encode_edge, decode_edge, encode_face, decode_face, sortEdge, sortFace"]}
{"id": "C15", "title": "Coordinate format operator accumulates entries", "statement": "After any sequence of setEntry/addToEntry on an IJOperator (real or complex), getEntry returns the accumulated value (set overwrites, add adds, untouched is zero), and to_csr_linear_operator produces a valid CSR matrix with exactly these entries in which every touched position is stored exactly once.", "quantifier": "all operation sequences, all dimensions below 2^31", "why_tests_cant": "Histories and key collisions range over an unbounded set.", "anchors": ["base/PyNucleus_base/IJOperator_{SCALAR}.pxi: setEntry, addToEntry, getEntry, to_csr_linear_operator"]}
{"id": "C16", "title": "Galerkin triple product", "statement": "The triple products add the Galerkin product to the coarse matrix at its stored positions and change nothing else: multiply(R, A, Ac) and multiply_restr(R, A, Ac) add (R A R^T)_{ij}, multiply2(P, A, Ac) adds (P^T A P)_{ij}, in CSR and in symmetric storage; the Galerkin product of a symmetric matrix is symmetric; restrictMatrix adds the Galerkin product for every R.", "quantifier": "all CSR matrices of compatible shape", "why_tests_cant": "Nested sparse loops over arbitrary patterns.", "anchors": ["base/PyNucleus_base/linear_operators.pyx: multiply_restr, multiply"]}
{"id": "C17", "title": "Direct triangular/LU/Cholesky solves are exact", "statement": "Whenever the factors multiply to the (permuted) matrix and the diagonals are invertible, the returned x satisfies A x = b in exact arithmetic: forward and backward substitution by columns and by rows (also in place and with the diagonal stored apart), LU with row and column permutations A[i,j] = (L U)[perm_r[i], perm_c[j]], solve_cholesky, the ichol_solver solve and the packed Cholesky solve on the factor packed by setup. The result does not depend on the old content of work arrays.", "quantifier": "all sizes, all factor patterns, all right hand sides, all permutations", "why_tests_cant": "Permutation direction errors are invisible for symmetric permutations or small samples.", "anchors": ["base/PyNucleus_base/linalg.pyx: forward_solve_*, backward_solve_*, solve_LU, solve_cholesky", "base/PyNucleus_base/opt_false_solver_cholmod.pxi: chol_solver"]}
{"id": "C18", "title": "Cuthill-McKee ordering is a permutation", "statement": "cuthill_mckee fills the order array with every node number exactly once for every graph, connected or not, whatever the output array held before and however argsort breaks ties. The order is breadth first: every node either has an earlier neighbour or starts a new component, in which case the earlier nodes form a union of components and the node has least degree among the remaining ones. Neighbours of earlier nodes come first and neighbours of the same node come by increasing degree. reverse=True returns the same order backwards.", "quantifier": "all undirected graphs in CSR form", "why_tests_cant": "Depends on the BFS frontier bookkeeping for every graph topology.", "anchors": ["base/PyNucleus_base/sparseGraph.pyx: cuthill_mckee"]}
{"id": "C19", "title": "Operator algebra is a homomorphism", "statement": "For linear operators built with +, -, *, @, .T (sums, scalings, products, transposes) matvec of the composite equals the composite of the matvecs, and matvecTrans equals the transposed composite.", "quantifier": "all expression trees over all operators and vectors of matching shape", "why_tests_cant": "Expression trees are unbounded; intermediate buffers are reused.", "anchors": ["base/PyNucleus_base/LinearOperator_{SCALAR}.pxi: TimeStepperLinearOperator, Multiply_Linear_Operator, Product_Linear_Operator, Transpose_Linear_Operator"]}
{"id": "C20", "title": "Result of an operator application does not depend on the old output", "statement": "matvec(x,y) and matvecTrans(x,y) overwrite y: the returned y is a function of x only; the no_overwrite variants return y_old + A x (respectively y_old + A^T x).", "quantifier": "all operators in the algebra, all previous contents of the output vector", "why_tests_cant": "Stale accumulation is invisible when the output buffer happens to be zero.", "anchors": ["base/PyNucleus_base/LinearOperator_{SCALAR}.pxi: matvec, matvecTrans, matvec_no_overwrite", "base/PyNucleus_base/opt_false_blas.pxi: gemv, gemvT, gemvF"]}
{"id": "C21", "title": "Block triangular inverses", "statement": "Applying the block lower (upper) inverse to b returns x with (block lower/upper part of A) x = b whenever the diagonal block inverses are inverses.", "quantifier": "all numbers of blocks and sizes, all blocks, all right hand sides", "why_tests_cant": "Arbitrary number of blocks.", "anchors": ["base/PyNucleus_base/linear_operators.pyx: blockLowerInverse, blockUpperInverse"]}
{"id": "C22", "title": "Interpolation operator reproduces polynomials", "statement": "interpolationOperator with distinct nodes t_0..t_n and operators A_i: after set(t) the operator is sum_i l_i(t) A_i with l_i the Lagrange basis; at a node it is exactly A_i; derivative options give the derivatives of the interpolating polynomial.", "quantifier": "all numbers of nodes, all distinct nodes, all evaluation points", "why_tests_cant": "Polynomial identity in n+2 real parameters for every n.", "anchors": ["base/PyNucleus_base/linear_operators.pyx: interpolationOperator.set, multiIntervalInterpolationOperator.set"]}
{"id": "C23", "title": "Delayed construction is transparent", "statement": "An operator with delayed construction gives, for every sequence of setParams, matvec and access calls, the result that the eagerly rebuilt operator with the current parameters would give.", "quantifier": "all call sequences and parameter values", "why_tests_cant": "Cache invalidation over histories.", "anchors": ["base/PyNucleus_base/linear_operators.pyx: delayedConstructionOperator.assure_constructed, setParams"]}
{"id": "C24", "title": "CG tracks the true residual and reports convergence honestly", "statement": "In exact arithmetic, at every iteration the internal residual equals b - A x; when the solver stops as converged the residual norm of the returned x is below the tolerance; the number of iterations never exceeds maxIter.", "quantifier": "all linear operators A, preconditioners, right hand sides, initial guesses, tolerances, iteration limits", "why_tests_cant": "Holds over unboundedly many iterations including the periodic residual recomputation.", "anchors": ["base/PyNucleus_base/solvers.pyx: cg_solver.solve", "base/PyNucleus_base/convergence.pyx: convergenceMaster"]}
{"id": "C25", "title": "BiCGStab tracks the true residual", "statement": "At every iteration the internal residual equals b - A x for any preconditioner; a converged exit implies residual norm below tolerance; a zero initial residual returns the initial guess.", "quantifier": "all linear operators, preconditioners, right hand sides, initial guesses", "why_tests_cant": "Unbounded iterations; breakdown inputs are measure zero.", "anchors": ["base/PyNucleus_base/solvers.pyx: bicgstab_solver.solve"]}
{"id": "C26", "title": "GMRES returns the minimiser also on early termination", "statement": "A GMRES cycle returns the minimiser of the (preconditioned) residual over the Krylov space and reports its norm; a converged exit implies that norm is below the tolerance; when the Krylov space becomes invariant (Arnoldi breakdown) GMRES returns the exact solution.", "quantifier": "all matrices and right hand sides for which breakdown happens", "why_tests_cant": "Breakdown happens on a measure-zero set of inputs that random tests miss.", "anchors": ["base/PyNucleus_base/solvers.pyx: gmres_solver.solve"]}
{"id": "C27", "title": "Smoothers and relaxation preconditioners solve the splitting they claim", "statement": "Forward SOR returns (D/w+L)^{-1} b, backward SOR returns (D/w+U)^{-1} b, SSOR returns (2-w)(D/w+U)^{-1}(D/w)(D/w+L)^{-1} b, Gauss-Seidel sweeps satisfy the row equations; the exact solution is a fixed point of every smoother; pre-smoothing uses the configured pre-sweep direction and post-smoothing the configured post-sweep direction.", "quantifier": "all sparse matrices with non-zero diagonal, all relaxation parameters, vectors, step counts and configured directions", "why_tests_cant": "In-place sweeps over arbitrary patterns; direction mix-ups converge all the same.", "anchors": ["multilevelSolver/PyNucleus_multilevelSolver/smoothers_{SCALAR}.pxi: sorPreconditioner, ssorPreconditioner, gaussSeidelSmoother, jacobiSmoother"]}
{"id": "C28", "title": "Multigrid cycle is consistent", "statement": "For every hierarchy the exact solution is a fixed point of the V/W cycle; one cycle from zero is a linear map of the right hand side; with A symmetric, R = P^T and adjoint pre/post smoothers the cycle is symmetric; the outer loop returns only when the residual is at most the tolerance or the iteration limit is reached, and reports the iterations done.", "quantifier": "all numbers of levels, all operators per level, all right hand sides, cycle counts", "why_tests_cant": "Recursive algorithm on unbounded depth.", "anchors": ["multilevelSolver/PyNucleus_multilevelSolver/multigrid_{SCALAR}.pxi: solveOnLevel, solve, matvec"]}
{"id": "C29", "title": "Time stepping coefficients and cached solvers", "statement": "The L1 (Caputo) convolution weights are positive, decreasing and telescope so that constants have zero fractional derivative; every step of the theta scheme, the L1 scheme and the IMEX Runge-Kutta schemes satisfies the equations of the scheme for the step size and time of that step, whatever solvers were cached before; the built-in tableaux satisfy their order conditions.", "quantifier": "all step counts, all orders in (0,1), all sequences of time steps", "why_tests_cant": "Sum identities for every number of steps; stale caches appear only for particular call histories.", "anchors": ["base/PyNucleus_base/timestepping.py: CaputoTimeStepperL1, CrankNicolson, IMEX"]}
{"id": "C30", "title": "Factory registration and lookup", "statement": "After any sequence of register calls, build(name or alias) calls the class registered last for the canonical name, with the registered parameters overridden by the keyword arguments and no mutable parameter object shared with the factory; unknown names raise KeyError; isRegistered(name) is true iff build(name) finds an entry; numRegistered counts distinct canonical names.", "quantifier": "all sequences of registrations, all names and aliases", "why_tests_cant": "Histories over an infinite set of names.", "anchors": ["base/PyNucleus_base/factory.py: factory.register, build, isRegistered, getCanonicalName"]}
{"id": "C31", "title": "Overlap accumulation is schedule independent", "statement": "After accumulate on distributed vectors every rank holds, at each shared degree of freedom, the sum over all ranks sharing it, whatever order messages arrive in; non-shared entries are unchanged.", "quantifier": "all numbers of ranks, all consistent overlaps, all vectors, all arrival orders", "why_tests_cant": "The number of message orders grows factorially and overlaps are arbitrary.", "anchors": ["fem/PyNucleus_fem/algebraicOverlaps.pyx: algebraicOverlapManager.accumulate, accumulateProcess, sendReceive"]}
{"id": "C32", "title": "Distribute is a partition of unity", "statement": "distribute followed by accumulate is the identity on consistent vectors; every entry of the distribute scaling is 1/(number of ranks sharing the dof).", "quantifier": "all numbers of ranks, all consistent pairwise overlaps", "why_tests_cant": "Arbitrary multiplicity of sharing.", "anchors": ["fem/PyNucleus_fem/algebraicOverlaps.pyx: prepareDistribute, distribute"]}
{"id": "C33", "title": "Unique takes the value of the highest sharing rank", "statement": "After unique, every rank holds at each shared dof the value of the highest numbered rank sharing it, and a following communication is unaffected by pending sends.", "quantifier": "all numbers of ranks, all overlaps, all creation orders of the overlap table, all interleavings of pending sends", "why_tests_cant": "Depends on iteration order of a dictionary and on the timing of non-blocking sends.", "anchors": ["fem/PyNucleus_fem/algebraicOverlaps.pyx: unique, uniqueProcess, HDF5read"]}
{"id": "C34", "title": "Every dof is counted once and gets one global number", "statement": "countDoFs returns the number of distinct dofs across ranks; getGlobalIndices assigns to the distinct dofs consecutive numbers 0..N-1, equal on all ranks sharing a dof and distinct otherwise.", "quantifier": "all numbers of ranks and consistent overlaps", "why_tests_cant": "Global bijectivity over arbitrary overlap graphs.", "anchors": ["fem/PyNucleus_fem/algebraicOverlaps.pyx: countDoFs, getGlobalIndices"]}
{"id": "C35", "title": "Partition inverse table", "statement": "partition2sparseGraph(part, n) lists for every p exactly the cells with part[cell]=p, in increasing order, each cell exactly once.", "quantifier": "all partitions with values in [0,n)", "why_tests_cant": "In-place counting sort with shifted pointers, arbitrary and empty parts.", "anchors": ["fem/PyNucleus_fem/meshPartitioning.pyx: partition2sparseGraph"]}
{"id": "C36", "title": "Regular partitioning stays in range", "statement": "balancePartitions returns one factor per dimension (prime factors distributed) with product equal to the requested number; the regular partitioner gives every vertex a number in [0,numPartitions), the same number exactly to vertices not separated by a grid plane, uses every number, and raises only if some partition would be empty; the irregular partitioner gives every vertex a number below the product for any quantiles.", "quantifier": "all numbers of partitions, dimensions and points in the box", "why_tests_cant": "Floor and clamping at the upper boundary for every count.", "anchors": ["fem/PyNucleus_fem/meshPartitioning.pyx: regularVertexPartitioner, regularDofPartitioner, balancePartitions"]}
{"id": "C37", "title": "Distributed matvec equals the global matvec", "statement": "For operators distributed by overlapping sub-assembly or by rows, the distributed matvec and residual compute, on each rank, the rows of the global (assembled) product for every split of interior/overlap rows and every arrival order; the diagonal is the one of the global matrix; the options doDistribute/keepDistributedResult work for every operator.", "quantifier": "all numbers of ranks, all row distributions, all sparse matrices", "why_tests_cant": "Communication overlap and ghost indexing for arbitrary patterns.", "anchors": ["fem/PyNucleus_fem/distributed_operators_{SCALAR}.pxi: CSR_DistributedLinearOperator.matvec, RowDistributedOperator"]}
{"id": "C38", "title": "DoF numbering is bijective and conforming", "statement": "For every simplicial mesh and element, global dof numbers are gap-free, interior dofs >= 0 and boundary dofs < 0; two local dofs have the same number iff they sit on the same mesh entity at the same node, hence for Lagrange elements only if they are the same physical point; this survives reorder and resetUsingFEVector.", "quantifier": "all meshes (cell arrays), all elements", "why_tests_cant": "Orientation of edges/faces relative to neighbours varies over meshes.", "anchors": ["fem/PyNucleus_fem/DoFMaps.pyx: DoFMap.__init__"]}
{"id": "C39", "title": "Complement and product dof maps", "statement": "getComplementDoFMap is an involution exchanging interior and boundary dofs and keeps the element (nodes, polynomial order, dimension); combine numbers all dofs without collision; Product_DoFMap numbering is a bijection between (component, scalar dof) pairs and dofs preserving the sign.", "quantifier": "all dof maps, all numbers of components", "why_tests_cant": "Sign conventions of negative numbers for every index.", "anchors": ["fem/PyNucleus_fem/DoFMaps.pyx: getComplementDoFMap, Product_DoFMap"]}
{"id": "C40", "title": "Assembly pattern", "statement": "buildSparsityPattern has entry (i,j) iff some cell contains both dofs i,j (interior); the symmetric variant stores exactly the strictly lower part; rows are sorted; with reorder=True this holds for the new numbers, which are a permutation of the old ones; the variant for two maps couples rows of the first with columns of the second.", "quantifier": "all dof maps", "why_tests_cant": "Quantifies over all meshes.", "anchors": ["fem/PyNucleus_fem/DoFMaps.pyx: DoFMap.buildSparsityPattern, buildNonSymmetricSparsityPattern"]}
{"id": "C41", "title": "Lagrange bases are nodal", "statement": "P0, P1, P2 and P3 shape functions in 1, 2 and 3 dimensions satisfy phi_i(node_j)=delta_ij and sum to one at every point of the simplex. Interpolating a function on a cell and evaluating the interpolant with evalFun reproduces every polynomial of degree at most the order of the element at every point. Evaluation of a shape function with a stride equals its evaluation at the strided entries.", "quantifier": "all barycentric points for the partition of unity, all pairs of local dofs", "why_tests_cant": "Polynomial identity in continuous variables.", "anchors": ["fem/PyNucleus_fem/DoFMaps.pyx: P1_DoFMap, P2_DoFMap, P3_DoFMap shape functions"]}
{"id": "C42", "title": "Uniform refinement is conforming and exact", "statement": "Refining a 1D/2D/3D simplicial mesh keeps the old vertices, adds one vertex per distinct edge at its midpoint shared by all cells containing the edge, and replaces each cell by 2/4/8 cells of equal signed volume (1/2^d of the parent) whose vertices come from the parent and its midpoints, which cover the parent and have disjoint interiors. In 3D neighbouring cells divide a common face into the same triangles and the inner octahedron is cut along its shortest diagonal. The returned table has exactly one entry per edge.", "quantifier": "all meshes, all vertex coordinates", "why_tests_cant": "Real coordinates and arbitrary incidence; the 3D case picks one of three diagonals.", "anchors": ["fem/PyNucleus_fem/meshCy.pyx: refineCy1D, refineCy2DedgeVals, refineCy3DedgeVals, refineCy2Dsort"]}
{"id": "C43", "title": "Boundary extraction", "statement": "boundaryVertices/boundaryEdges/boundaryFaces return exactly the vertices/edges/faces contained in an odd number of cells (one cell for manifold meshes), each once; boundary edges carry the orientation induced by their cell.", "quantifier": "all cell arrays", "why_tests_cant": "Toggle logic over arbitrary incidence.", "anchors": ["fem/PyNucleus_fem/meshCy.pyx: boundaryVertices, boundaryEdges, boundaryFaces"]}
{"id": "C44", "title": "Boundary faces are oriented outward", "statement": "boundaryFacesWithOrientation returns faces whose normal points out of their cell, for every non-degenerate tetrahedral mesh and every position of the mesh in space.", "quantifier": "all meshes, all translations", "why_tests_cant": "Fails only for particular positions relative to the origin.", "anchors": ["fem/PyNucleus_fem/meshCy.pyx: boundaryFacesWithOrientation"]}
{"id": "C45", "title": "Refining does not change the coarse mesh", "statement": "Computing the refined boundary (vertices, edges, faces and tags) leaves the boundary arrays of the mesh that is refined unchanged, and each refined boundary entity carries the tag of its parent.", "quantifier": "all boundary edge/face lists and tags", "why_tests_cant": "Aliasing of a scratch row with caller data.", "anchors": ["fem/PyNucleus_fem/meshCy.pyx: newBoundaryAndTags3D, newBoundaryAndTags"]}
{"id": "C46", "title": "Removing unused vertices keeps the geometry", "statement": "removeUnusedVertices keeps, for each cell, the coordinates of its vertices, renumbers vertices without gaps and keeps every remaining vertex used by a cell.", "quantifier": "all meshes", "why_tests_cant": "Renumbering of arbitrary arrays.", "anchors": ["fem/PyNucleus_fem/meshCy.pyx: meshBase.removeUnusedVertices"]}
{"id": "C47", "title": "Barycentric coordinates", "statement": "The barycentric coordinates computed for a point x of a non-degenerate simplex sum to one and reproduce x as the weighted sum of the vertices, for simplices of dimension 1 and 2, also when embedded in a higher dimensional space.", "quantifier": "all non-degenerate simplices and points in their affine hull", "why_tests_cant": "Continuous parameters; fails only for slanted segments.", "anchors": ["fem/PyNucleus_fem/meshCy.pyx: getBarycentricCoords1D, 1Din2D, 1Din3D, 2D"]}
{"id": "C48", "title": "Parallel symmetric matvec equals the serial one", "statement": "The symmetric-storage matvec returns the same result for every thread count and every interleaving of the threads.", "quantifier": "all interleavings, thread counts, matrices", "why_tests_cant": "A data race shows only under particular interleavings.", "anchors": ["base/PyNucleus_base/SSS_LinearOperator_{SCALAR}.pxi: matvec (NoThreads > 1)"]}
{"id": "C49", "title": "Growing a row never writes outside its allocation", "statement": "Entering keys into an edge dictionary or adding entries to a sparsity pattern never accesses memory outside the row allocation, for every history of calls on existing rows and every constructor argument.", "quantifier": "all histories of calls, all constructor arguments", "why_tests_cant": "the failure needs rows with hundreds of keys or unusual constructor arguments; out-of-bounds writes may go unnoticed when run", "anchors": ["base/PyNucleus_base/tupleDict_decl_{VALUE}.pxi / tupleDict_{VALUE}.pxi: tupleDict.enterValue, increaseSize", "base/PyNucleus_base/sparsityPattern_{LENGTH}.pxi: add"]}
{"id": "C50", "title": "Incomplete Cholesky reproduces the stored entries", "statement": "ichol_csr(A) returns a lower triangular factor L with the pattern of the lower triangle of A such that (L L^T)_ij = A_ij for every stored entry (i, j), whenever no pivot vanishes.", "quantifier": "all symmetric matrices in CSR format with stored diagonal, all patterns", "why_tests_cant": "A wrong factor still converges as a preconditioner, and tridiagonal test matrices hide the error.", "anchors": ["base/PyNucleus_base/linalg.pyx: ichol_csr, ichol_sss", "base/PyNucleus_base/opt_false_mkl_trisolve.pxi: ichol_solver"]}
{"id": "C51", "title": "Chebyshev preconditioner applies the Chebyshev error polynomial", "statement": "For every degree at least one, every positive spectral radius estimate and every interval 0 < lower <= upper, the Chebyshev preconditioner returns z with x - A z = prod_i (I - A/r_i) x, where r_i are the Chebyshev roots scaled to [rhoA*lower, rhoA*upper]; an eigenvector for the eigenvalue l is multiplied by prod_i (1 - l/r_i), and zero is mapped to zero.", "quantifier": "all operators, vectors, degrees, intervals", "why_tests_cant": "a wrong ordering or scaling of the coefficients still gives a smoother that converges on small tests", "anchors": ["multilevelSolver/PyNucleus_multilevelSolver/smoothers.pyx: chebyshevPreconditioner.__init__, matvec"]}
{"id": "C52", "title": "iterationMatrix returns the error matrix of one cycle", "statement": "For every hierarchy and V or W cycle, multigrid.iterationMatrix() returns I - B A where B is the matrix of one cycle.", "quantifier": "all hierarchies, tolerances", "why_tests_cant": "the tolerance only matters for matrices with small columns, e.g. mass matrices on fine meshes", "anchors": ["multilevelSolver/PyNucleus_multilevelSolver/multigrid_{SCALAR}.pxi: iterationMatrix"]}
{"id": "C53", "title": "Inverse of a METIS partition", "statement": "inversePartitionDofs/inversePartitionCells of the METIS partitioners list, for every partition METIS returns for n parts (numbers below n, parts may be empty), exactly the dofs (cells) of each part, each once.", "quantifier": "all partitions METIS can return, including partitions with empty parts", "why_tests_cant": "METIS leaves parts empty only for particular graphs and part counts, and the out-of-bounds write shows only then.", "anchors": ["fem/PyNucleus_fem/meshPartitioning.pyx: metisDofPartitioner.partitionDofs, metisMeshPartitioner.partitionCells, partition2sparseGraph"]}
{"id": "C54", "title": "Restrictions to interior, boundary and component dofs", "statement": "getFullDoFMap numbers all dofs, and its two restrictions select the interior and the boundary dofs, each dof exactly once; augmentWithBoundaryData followed by restriction returns the original values; getRestrictionProlongation of a product map selects exactly the dofs of one component.", "quantifier": "all dof maps that number nodes bijectively (C38), all vectors, all numbers of components", "why_tests_cant": "The restrictions are index computations over every dof of every mesh.", "anchors": ["fem/PyNucleus_fem/DoFMaps.pyx: getFullDoFMap (1256-1287), augmentWithBoundaryData, augmentWithZero (1186-1254), Product_DoFMap.getRestrictionProlongation (2548-2569)"]}
{"id": "C55", "title": "Local mass and stiffness matrices are the exact integrals", "statement": "For P0 (mass only), P1, P2 and P3 elements in 1, 2 and 3 dimensions every entry of the local mass matrix equals the integral over the cell of the product of the two shape functions, and every entry of the local stiffness matrix equals the integral of the inner product of their gradients, up to the relative error of one decimal constant per matrix, which is at most 1e-14.", "quantifier": "All simplices (all volumes and all Gram matrices of gradients), all pairs of local shape functions", "why_tests_cant": "A test can only compare a handful of meshes against tabulated solutions with tolerances; a wrong coefficient in one of the up to 210 entries changes convergence only slightly.", "anchors": ["fem/PyNucleus_fem/mass_1D_P0.pxi", "fem/PyNucleus_fem/mass_1D_P0_P1.pxi", "fem/PyNucleus_fem/mass_2D_P3.pxi", "fem/PyNucleus_fem/mass_3D_P3.pxi", "fem/PyNucleus_fem/stiffness_1D_P3.pxi", "fem/PyNucleus_fem/stiffness_2D_P3.pxi", "fem/PyNucleus_fem/stiffness_3D_P3.pxi"]}
{"id": "C56", "title": "Simplex volumes, gradients and inner products", "statement": "For every nondegenerate simplex of dimension 1, 2, 3 the volume routines return |det|/d! (square root of the Gram determinant over d! for embedded simplices), the routines for gradients return the gradients of the barycentric coordinates, the inner products are those gradients inner products times (d! volume)^2, and the local mass, stiffness and drift matrices computed from vertex coordinates are the integrals of the shape functions over the simplex.", "quantifier": "All vertex coordinates of nondegenerate simplices, of either orientation", "why_tests_cant": "The sign of gradients and of the drift matrix depends on the orientation of the simplex; a test can only try some simplices.", "anchors": ["fem/PyNucleus_fem/femCy.pyx:simplexVolumeAndProducts2D", "fem/PyNucleus_fem/femCy.pyx:simplexVolumeGradientsProducts3D", "fem/PyNucleus_fem/femCy.pyx:simplexComputations", "fem/PyNucleus_fem/femCy.pyx:drift_2d_P1", "fem/PyNucleus_fem/meshCy.pyx:volume2Din3Dsimplex"]}
{"id": "C57", "title": "Assembly of matrices", "statement": "assembleMatrix and assembleNonSymMatrix_CSR return the sum of the local matrices: entry (I,J) is the sum over cells and pairs of local dofs numbered I and J of the local entry; boundary dofs contribute -A_IB g_B to rhs_contribution; symmetric storage, given and new patterns, renumbered dofs and symLocalMatrix give the same matrix; without additiveAssembly consistent local entries become the entries. matrixFreeOperator applies the same matrix and returns its diagonal. With the local mass and stiffness matrices the entries are the integrals of products of shape functions and of their gradients over the mesh.", "quantifier": "All dof tables, local matrices, cell ranges, existing matrices and boundary data", "why_tests_cant": "A test can only compare a few meshes with references; the counter into the packed local matrix and the skipping of boundary rows must be right for every number of local dofs and every position of boundary dofs.", "anchors": ["fem/PyNucleus_fem/femCy.pyx:assembleSymMatrix_CSR", "fem/PyNucleus_fem/femCy.pyx:assembleSymMatrix_SSS", "fem/PyNucleus_fem/femCy.pyx:assembleNonSymMatrix_CSR", "fem/PyNucleus_fem/femCy.pyx:matrixFreeOperator"]}
{"id": "C58", "title": "Cluster pairs cover the interacting pairs of dofs exactly once", "statement": "For a cluster tree in which the dofs of a cluster are divided between its children and whose boxes enclose the supports of the dofs, and a kernel with finite or infinite horizon that is not a complement: after getAdmissibleClusters(kernel, n1, n2, Pfar, Pnear) the entries the lists had are unchanged and the new near-field and far-field pairs together contain every pair (i, j) with i in n1, j in n2 whose supports have points within the horizon exactly once, every other pair of dofs of n1 and n2 at most once, and no other pair; the merge of near-field pairs removes only pairs of the same call. The same for getCoveringClusters with near-field pairs only.", "quantifier": "every tree, boxes, dofs, admissibility parameters, number of levels, horizon and previous content of the lists", "why_tests_cant": "Whether a pair is lost or counted twice depends on the shape of the tree, on which recursions return early and on the merge; small test meshes see few of the combinations and an error only shows as a slightly wrong matrix.", "anchors": ["nl/PyNucleus_nl/clusterMethodCy.pyx:getAdmissibleClusters", "nl/PyNucleus_nl/clusterMethodCy.pyx:getCoveringClusters", "nl/PyNucleus_nl/interactionDomains.pyx:distBoxes"]}
{"id": "C59", "title": "Box distances and the position of far-field pairs relative to the horizon", "statement": "distBoxes is the least distance of points of two boxes, maxDistBoxes the greatest, diamBox the greatest distance of points of one box. Every far-field pair appended by getAdmissibleClusters consists of assembled clusters that are not mixed, has at least as many dof pairs as interpolation coefficients, and eta times the distance of any two points of the boxes is at least the distance of any two points of one box. For a finite-horizon kernel all points of a far-field pair are within the horizon; for a complement kernel all are beyond it, and every pair of dofs with points beyond the horizon is covered once.", "quantifier": "all boxes, trees, parameters and horizons", "why_tests_cant": "A wrong greatest distance of boxes that contain one another in one dimension makes the far field smear a kernel over its discontinuity or drops entries; only an error of the size of the quadrature error is seen.", "anchors": ["nl/PyNucleus_nl/interactionDomains.pyx:maxDistBoxes", "nl/PyNucleus_nl/clusterMethodCy.pyx:diamBox", "nl/PyNucleus_nl/clusterMethodCy.pyx:getAdmissibleClusters"]}
{"id": "C60", "title": "Refinement of a cluster tree", "statement": "tree_node.refine either leaves a cluster as it is or gives it at least two children that divide its dofs, each with at least minSize and fewer than all dofs. The box of a cluster is the smallest box that contains the boxes of its dofs, and boxes of children lie in that of the parent. In the tree of the recursive refinement get_dofs and num_dofs of the root are those before refinement, every inner node has the union of the dofs of its children, and all identifiers are distinct. No list access is invalid. With refinement type BARYCENTER a cluster below the greatest level is split if coordinates of its dofs differ.", "quantifier": "all dofs, boxes, coordinates, refinement parameters and trees", "why_tests_cant": "A dof dropped by a half-open box or a repeated identifier needs special point sets; an error of matrix-vector products for some meshes does not show it.", "anchors": ["nl/PyNucleus_nl/clusterMethodCy.pyx:refine", "nl/PyNucleus_nl/clusterMethodCy.pyx:inBox", "nl/PyNucleus_nl/clusterMethodCy.pyx:get_dofs", "nl/PyNucleus_nl/clusterMethodCy.pyx:merge_boxes"]}
{"id": "C61", "title": "Traversal, numbering and trimming of cluster trees", "statement": "get_tree_nodes, get_tree_nodes_up_to_level(l), get_tree_nodes_on_level(l), getNumNodesOnLevel(l), getNumLeavesOnLevel(l) and numLevels return or count the nodes of a tree at the depths they name, once each. The leaves divide the dofs of a refined tree, and findNodeForDoF returns the leaf with the dof. getParent(l) is the ancestor on level l. After set_id all identifiers are distinct and consecutive in the order of get_tree_nodes; idsAreUnique is true exactly if identifiers are distinct. trim keeps the dofs of the tree and every node of the given set with its dofs, and leaves children only where some node below is in the set; trimTree keeps all nodes of cluster pairs. symmetrizeNearFieldClusters appends exactly the missing transposed pairs, once each, in every iteration order.", "quantifier": "all trees, levels, identifiers, sets of nodes to keep, lists of pairs and iteration orders of the set", "why_tests_cant": "The methods are used on trees of particular shape; a node lost by trimming or a pair appended twice depends on which subtrees are used and on the order in which Python empties a set.", "anchors": ["nl/PyNucleus_nl/clusterMethodCy.pyx:get_tree_nodes_on_level", "nl/PyNucleus_nl/clusterMethodCy.pyx:getParent", "nl/PyNucleus_nl/clusterMethodCy.pyx:set_id", "nl/PyNucleus_nl/clusterMethodCy.pyx:trim", "nl/PyNucleus_nl/clusterMethodCy.pyx:trimTree", "nl/PyNucleus_nl/clusterMethodCy.pyx:symmetrizeNearFieldClusters", "nl/PyNucleus_nl/clusterMethodCy.pyx:findNodeForDoF"]}
{"id": "C62", "title": "Products with a hierarchical matrix", "statement": "An H2Matrix represents the near field plus, for every far-field pair and component, cluster basis of the row times kernel interpolant times cluster basis of the column, where the basis of a cluster is that of its leaves transported by the transfer matrices. matvec(x, y) sets y to the product, matvec_no_overwrite adds it, matvecTrans and matvecTrans_no_overwrite do so with the transpose, for every content the coefficient arrays and y had before. With the basis matrix of constructBasis the products are the same. toarray returns the matrix.", "quantifier": "all trees, numbers of coefficients per node, transfer matrices, values, far-field pairs in every order, near fields, vectors and previous contents of the arrays", "why_tests_cant": "A coefficient array that is not reset or a transfer applied in the wrong order shows only for trees of three or more levels and after a previous product; a test can only compare with a dense matrix up to the approximation error.", "anchors": ["nl/PyNucleus_nl/clusterMethodCy.pyx:matvec", "nl/PyNucleus_nl/clusterMethodCy.pyx:matvecTrans", "nl/PyNucleus_nl/clusterMethodCy.pyx:matvec_no_overwrite", "nl/PyNucleus_nl/clusterMethodCy.pyx:upwardPass", "nl/PyNucleus_nl/clusterMethodCy.pyx:downwardPass", "nl/PyNucleus_nl/clusterMethodCy.pyx:toarray", "nl/PyNucleus_nl/clusterMethodCy.pyx:constructBasisMatrix"]}
{"id": "C63", "title": "Chebyshev interpolation in clusters", "statement": "The interpolation nodes of a cluster are distinct and lie in the interior of its box. The transfer matrix of a child maps values of a polynomial of degree less than the parent's order in the nodes of the parent to its values in the nodes of the child. The values that enterLeafValues stores for a leaf, weighted with the values of a polynomial in the nodes, are the quadrature of basis function times polynomial. Transported by the transfer matrix they are the values that the box of the parent would give, if the parent's order is not larger. For kernels that are polynomials in each argument the values of two leaves with the kernel interpolant give the double quadrature of the kernel, times -2 unless bemMode.", "quantifier": "all dimensions, orders, boxes, cells, quadrature rules, dof sets, polynomials", "why_tests_cant": "The order of multi-indices and roles of parent and child show only for non-constant polynomials in several variables; a test can only compare far fields with dense matrices with a tolerance that hides errors for small boxes.", "anchors": ["nl/PyNucleus_nl/clusterMethodCy.pyx:build", "nl/PyNucleus_nl/clusterMethodCy.pyx:enterLeafValues", "nl/PyNucleus_nl/clusterMethodCy.pyx:assembleFarFieldInteractions"]}
{"id": "C64", "title": "Relative position of two simplices", "statement": "A ball as interaction domain has the value one for two points exactly if their distance in its norm is at most the horizon, its complement exactly if not, and the attribute dist2 is the squared Euclidean distance. getRelativePosition answers INTERACT only if all pairs of points of the two simplices interact and REMOTE only if no pair of points is nearer than the horizon, gives the same answer with the simplices exchanged and the opposite answer for the complement, and keeps the answer in relPos, where the assembly looks for it to decide whether elements are cut. The same holds for balls transformed by a matrix.", "quantifier": "all dimensions, numbers of vertices, simplices, horizons, both norms, all matrices", "why_tests_cant": "The answers are used to leave out pairs of cells; a wrong answer for a few pairs shows as a small quadrature error.", "anchors": ["nl/PyNucleus_nl/interactionDomains.pyx:getRelativePosition", "nl/PyNucleus_nl/interactionDomains.pyx:isInside", "nl/PyNucleus_nl/interactionDomains.pyx:evalPtr"]}
{"id": "C65", "title": "Decomposition of cut elements", "statement": "For a Euclidean ball as interaction domain findIntersections gives the parameters of the points of an edge on the sphere. The loop over sub-simplices around a point gives parts of the simplex that lie in the ball, do not overlap and have the stated volumes; together they are the intersection of simplex and ball on the line, and the whole simplex if all vertices are in the ball. The loop over sub-simplices of the first simplex of a cut pair gives parts of it with the stated volumes that do not overlap; together they are the set of points that interact with a point of the second simplex. Neither depends on old contents of the work arrays, and nothing is written outside of them.", "quantifier": "all radii, points, intervals and triangles without coinciding vertices, all contents of the array for intersections", "why_tests_cant": "There are many cases of numbers of vertices inside and of intersections, with matrices entered entry by entry; a wrong entry changes integrals by an amount that looks like quadrature error.", "anchors": ["nl/PyNucleus_nl/interactionDomains.pyx:startLoopSubSimplices_Node", "nl/PyNucleus_nl/interactionDomains.pyx:startLoopSubSimplices_Simplex", "nl/PyNucleus_nl/interactionDomains.pyx:nextSubSimplex_Simplex", "nl/PyNucleus_nl/interactionDomains.pyx:findIntersections"]}
{"id": "C66", "title": "Restriction and prolongation", "statement": "buildRestrictionProlongation of two Lagrange spaces on a mesh and its uniform refinement (same order 0 to 3), or on one mesh (orders 1,2; 1,3; 2,3), gives a valid sorted matrix R and its transpose P. The entry of R for a coarse dof and a fine dof is the value of the coarse basis function at the fine node. The finite element function with coefficients P x on the fine mesh is the function with coefficients x on the coarse mesh, at every point of every fine cell. All other pairs are refused. Contents of uninitialised arrays have no influence.", "quantifier": "all meshes in dimension 1, 2, 3 with the fine cells where refinement puts them (all three diagonals of tetrahedra), all numberings of nodes, all coefficient vectors, all points", "why_tests_cant": "There are 21 functions with tables of thousands of entries, some used only for one diagonal of the tetrahedra; a wrong or missing entry only slows down the multigrid iteration.", "anchors": ["multilevelSolver/PyNucleus_multilevelSolver/restrictionProlongation.pyx:buildRestrictionProlongation", "multilevelSolver/PyNucleus_multilevelSolver/restrictionProlongation.pyx:enterData"]}
{"id": "C67", "title": "Quadrature rules are exact to their order", "statement": "A simplex quadrature rule of order p (Gauss1D, Gauss2D, Gauss3D, simplexDuffyTransformation, simplexXiaoGimbutas) integrates every polynomial of degree at most p over every simplex, also embedded ones, exactly: `integrate` is the volume times the mean value given by the moments of barycentric coordinates. Nodes are the points with the given barycentric coordinates, also after reordering. Joined rules add up; a transformed rule is the rule on the transformed simplex. The rule for pairs of simplices is the iterated rule. The rules on the circle have nodes on the circle, the length as sum of weights and integrate harmonics of degree less than the number of nodes. The rules on cubes integrate products of powers up to the order over the cube and `integrate` maps them to parallelepipeds. Unsupported orders raise.", "quantifier": "for all orders, dimensions 0 to 3, manifold dimensions, polynomials and simplices; nodes and weights of scipy and modepy as parameters with their defining moments", "why_tests_cant": "A test can only integrate a few monomials over the reference simplex; exactness is about all polynomials and all simplices.", "anchors": ["fem/PyNucleus_fem/quadrature.pyx:quadratureRule", "fem/PyNucleus_fem/quadrature.pyx:simplexQuadratureRule", "fem/PyNucleus_fem/quadrature.pyx:transformQuadratureRule", "fem/PyNucleus_fem/quadrature.pyx:doubleSimplexQuadratureRule", "fem/PyNucleus_fem/quadrature.pyx:Gauss1D", "fem/PyNucleus_fem/quadrature.pyx:Gauss2D", "fem/PyNucleus_fem/quadrature.pyx:Gauss3D", "fem/PyNucleus_fem/quadrature.pyx:quadQuadratureRule", "fem/PyNucleus_fem/quadrature.pyx:Gauss", "fem/PyNucleus_fem/quadrature.pyx:GaussJacobi", "fem/PyNucleus_fem/quadrature.pyx:simplexDuffyTransformation", "fem/PyNucleus_fem/quadrature.pyx:simplexXiaoGimbutas", "fem/PyNucleus_fem/quadrature.pyx:sphericalQuadRule1D", "fem/PyNucleus_fem/quadrature.pyx:sphericalQuadRule2D"]}
{"id": "C68", "title": "Right-hand sides are integrals against the basis functions", "statement": "`assembleRHS` and `assembleRHScomplex` return for every dof the sum over the cells of the integral of the function times the basis function, exactly for polynomials whose degree plus the order of the space is at most the order of the quadrature rule, also on embedded meshes; without given rule for all functions of the space. Boundary dofs get nothing. Real and imaginary part can be assembled separately. For a product of spaces each component is the scalar right-hand side of the component of the function. `assembleRHSfromFEfunction` is the product of the mass matrix of the two spaces with the vector. `assembleNonlinearity` integrates polynomials of the finite element functions against the basis functions for every output.", "quantifier": "for all meshes given as lists of cells with rows of dofs, orders 0 to 3, dimensions 1 to 3, manifold dimensions, polynomials and quadrature rules", "why_tests_cant": "A test can only compare solution errors for a few functions and meshes, where wrong quadrature only changes a constant or is hidden by the discretisation error.", "anchors": ["fem/PyNucleus_fem/femCy.pyx:assembleRHS", "fem/PyNucleus_fem/femCy.pyx:assembleRHScomplex", "fem/PyNucleus_fem/femCy.pyx:assembleRHSfromFEfunction", "fem/PyNucleus_fem/femCy.pyx:assembleNonlinearity", "fem/PyNucleus_fem/DoFMaps.pyx:Product_DoFMap"]}
{"id": "C69", "title": "Pairs of cells: panel type, common vertices and permutation of dofs", "statement": "`PermutationIndexer.rank` numbers the permutations of N numbers from 0 to N!-1 in lexicographic order, and row r of the precomputed tables belongs to the permutation of rank r. `getProtoPanelType` skips a pair only for symmetric cells in the second order; otherwise it returns minus the number of common vertices, with permutations of both cells that list the common vertices first and in the same order. The permutation of the dofs puts the nodes of the first cell at the nodes of the permuted simplex, likewise those nodes of the second cell that are not on the common part, each once; every other node of the second cell is a node of the first. Pairs classified as entirely within the horizon have no points outside, pairs left out have no points within the horizon.", "quantifier": "for all N, all permutations, all pairs of cells with distinct vertices (any vertex numbers), symmetric or not, orders 0 to 3 in dimensions 1 to 3, all vertex coordinates and horizons", "why_tests_cant": "The local numbering decides which singular quadrature value goes to which matrix entry; a test can only use few meshes and compare errors, where a wrong permutation for one relative orientation is easily averaged out.", "anchors": ["nl/PyNucleus_nl/nonlocalOperator.pyx:PermutationIndexer", "nl/PyNucleus_nl/nonlocalOperator_{SCALAR}.pxi:precomputePermutations", "nl/PyNucleus_nl/nonlocalOperator_{SCALAR}.pxi:getProtoPanelType", "nl/PyNucleus_nl/nonlocalOperator_{SCALAR}.pxi:computeExtremeDistances", "nl/PyNucleus_nl/nonlocalOperator_{SCALAR}.pxi:computeCellPairIdentifier"]}
{"id": "C70", "title": "Assembly of nonlocal operators", "statement": "Entry (I, J) of the matrix assembled by `getDense` is the sum over all ordered pairs of cells, and all pairs of local dofs of the pair with the global numbers I and J, of the entries of the local matrices, plus the sum over cells and cells of the surface for the exterior. This holds for symmetric and general local matrices, with and without symmetry in the cells (one pair counted twice), also for cells that share dofs; pairs without free dofs and ignored pairs have no contribution. The sum over the ranks gives the same matrix. The assembled sparsity pattern contains every entry that is added, so CSR and SSS matrices with this pattern contain the same entries. Masks select exactly the entries of the local matrices with the given local dofs. `getEntry(I, J)` returns the entry of the matrix.", "quantifier": "for all meshes and tables of dofs (including negative numbers of boundary dofs), all local matrices over any semiring, all numbers of ranks, all masks, all I and J", "why_tests_cant": "A test can only compare dense matrices with hierarchical ones within a tolerance; a counter that runs out of step with the local matrix, a pair counted once or twice, a state of the local matrix that is not restored, or a rank boundary that loses a cell only shows for some dof layouts; no test in the repository calls getEntry.", "anchors": ["nl/PyNucleus_nl/nonlocalAssembly_{SCALAR}.pxi:getDoFsElemElem", "nl/PyNucleus_nl/nonlocalAssembly_{SCALAR}.pxi:addToMatrixElemSym", "nl/PyNucleus_nl/nonlocalAssembly_{SCALAR}.pxi:addToMatrixElem", "nl/PyNucleus_nl/nonlocalAssembly_{SCALAR}.pxi:addToSparsityElemElemSym", "nl/PyNucleus_nl/nonlocalAssembly_{SCALAR}.pxi:addToSparsityElemElem", "nl/PyNucleus_nl/nonlocalAssembly_{SCALAR}.pxi:addToMatrixElemElemSym", "nl/PyNucleus_nl/nonlocalAssembly_{SCALAR}.pxi:addToMatrixElemElem", "nl/PyNucleus_nl/nonlocalAssembly_{SCALAR}.pxi:getElemElemSymMask", "nl/PyNucleus_nl/nonlocalAssembly_{SCALAR}.pxi:getElemElemMask", "nl/PyNucleus_nl/nonlocalAssembly_{SCALAR}.pxi:getElemSymMask", "nl/PyNucleus_nl/nonlocalAssembly_{SCALAR}.pxi:addToMatrixElemElemSymMasked", "nl/PyNucleus_nl/nonlocalAssembly_{SCALAR}.pxi:addToMatrixElemElemMasked", "nl/PyNucleus_nl/nonlocalAssembly_{SCALAR}.pxi:extractElemElemSymMasked", "nl/PyNucleus_nl/nonlocalAssembly_{SCALAR}.pxi:getDense", "nl/PyNucleus_nl/nonlocalAssembly_{SCALAR}.pxi:getEntry", "nl/PyNucleus_nl/nonlocalAssembly.pyx:getElemElemSymMask"]}
{"id": "C71", "title": "Assembly of the near field of cluster pairs", "statement": "Let a list of near-field cluster pairs have disjoint blocks, and let it contain with every pair the reversed one (as after `symmetrizeNearFieldClusters`; needed for symmetric local matrices only). The interior part of `assembleClusters` adds to an entry (I, J) in the block of a cluster pair the sum, over all ordered pairs of cells in the union of the cells of this cluster pair, of the entries of the local matrices for the global numbers I and J, and nothing to other entries. This is independent of the limit on the number of masks, that is of the batches, equal to the result of the loop without masks (`use_masks=False`), and for cluster pairs distributed to ranks it holds for the sum over the ranks. The loop 'cluster zeroExterior' adds to (I, J) the local matrices of the cells in the intersection with the cells of the surface of the union.", "quantifier": "for all meshes and tables of dofs, all lists of cluster pairs with disjoint blocks, all local matrices over any semiring (symmetric or general, with or without symmetry in the cells), all limits on the number of masks, all distributions to ranks, all I and J", "why_tests_cant": "A test can only compare H-matrices with dense matrices within the error of the far field; entries lost because the mask only stores the upper triangle, counted twice because they are in two batches, or missed because only cells of the first times cells of the second node are visited, are hidden in that tolerance or need more than ten million masks.", "anchors": ["nl/PyNucleus_nl/nonlocalAssembly_{SCALAR}.pxi:buildMasksForClusters", "nl/PyNucleus_nl/nonlocalAssembly_{SCALAR}.pxi:getElemElemSymMask", "nl/PyNucleus_nl/nonlocalAssembly_{SCALAR}.pxi:getElemElemMask", "nl/PyNucleus_nl/nonlocalAssembly_{SCALAR}.pxi:getElemSymMaskCluster", "nl/PyNucleus_nl/nonlocalAssembly_{SCALAR}.pxi:addToMatrixElemElemSymMasked", "nl/PyNucleus_nl/nonlocalAssembly_{SCALAR}.pxi:addToMatrixElemElemMasked", "nl/PyNucleus_nl/nonlocalAssembly_{SCALAR}.pxi:assembleClusters", "nl/PyNucleus_nl/nonlocalAssembly_{SCALAR}.pxi:FilteredAssemblyOperator.addToEntry", "nl/PyNucleus_nl/bitset.pyx:enterValue", "nl/PyNucleus_nl/nonlocalAssembly.pyx:nearFieldClusterPair.set_cells"]}
{"id": "C72", "title": "Boundary kernels belong to their kernels by Gauss theorem", "statement": "For a kernel \u03b3 and the boundary kernel \u0393 returned by `getBoundaryKernel` (\"the kernel that corresponds to the elimination of a subdomain via Gauss theorem\"), the vector field z \u21a6 \u0393(x, z) (z - x)/|z - x| has divergence -2 \u03b3(x, z) at every z different from x and not at the horizon. A fractional kernel and its boundary kernel equal the scaling times the distance to the power `singularityValue` inside the interaction domain and 0 outside. Kernels are symmetric when their interaction domain is, and kernels of finite horizon vanish outside of the interaction domain.", "quantifier": "for all kernel types and dimensions that the constructors accept, all real parameters (order, scaling, rate, horizon), all points", "why_tests_cant": "A wrong factor of a boundary kernel for one type and dimension (exponential in 2D), a lost parameter (tempering) or a factor applied twice (phi) shows up only when that combination is assembled with zero exterior; a test can only try some combinations, with tolerances of the discretisation error.", "anchors": ["nl/PyNucleus_nl/kernelsCy.pyx:Kernel.__init__", "nl/PyNucleus_nl/kernelsCy.pyx:Kernel.getBoundaryKernel", "nl/PyNucleus_nl/kernelsCy.pyx:FractionalKernel.__init__", "nl/PyNucleus_nl/kernelsCy.pyx:FractionalKernel.getBoundaryKernel", "nl/PyNucleus_nl/kernelsCy.pyx:fracKernelFinite1D", "nl/PyNucleus_nl/kernelsCy.pyx:fracKernelInfinite2Dboundary", "nl/PyNucleus_nl/kernelsCy.pyx:indicatorKernel2Dboundary", "nl/PyNucleus_nl/kernelsCy.pyx:peridynamicKernel1Dboundary", "nl/PyNucleus_nl/kernelsCy.pyx:gaussianKernel1Dboundary", "nl/PyNucleus_nl/kernelsCy.pyx:gaussianKernel2Dboundary", "nl/PyNucleus_nl/kernelsCy.pyx:exponentialKernelBoundary", "nl/PyNucleus_nl/kernelsCy.pyx:polynomialKernel1Dboundary", "nl/PyNucleus_nl/kernelsCy.pyx:temperedFracKernelInfinite1D", "nl/PyNucleus_nl/kernels.py:getFractionalKernel", "nl/PyNucleus_nl/kernels.py:getIntegrableKernel", "nl/PyNucleus_nl/kernels.py:_getInteraction"]}
{"id": "C73", "title": "Derivative kernels are derivatives with respect to the fractional order", "statement": "The kernels returned by `getFractionalKernel(..., derivative=1)` and `derivative=2`, by `getDerivativeKernel`, `getHessianKernel` and by `getBoundaryKernel` of those evaluate, at every pair of different points, to the first and second derivative with respect to the fractional order of the kernel (of the boundary kernel) itself, normalisation included; for orders with parameters the entries are the partial derivatives with respect to the parameters. Variable orders give the same values as constant ones.", "quantifier": "for all orders in (0, 1), dimensions 1, 2, 3, horizons (finite or infinite), with or without normalisation, interior and boundary kernels, all points, all numbers of parameters", "why_tests_cant": "The formulas contain digamma and trigamma functions of the order, with eight combinations of flags for each derivative; a test can only compare some of them with difference quotients to low accuracy. A wrong branch (a lost normalisation for boundary kernels, the untempered factor for tempered kernels) only changes the gradient of an optimisation.", "anchors": ["nl/PyNucleus_nl/kernelsCy.pyx:FractionalKernel.__init__", "nl/PyNucleus_nl/kernelsCy.pyx:FractionalKernel.eval", "nl/PyNucleus_nl/kernelsCy.pyx:FractionalKernel.evalPtr", "nl/PyNucleus_nl/kernelsCy.pyx:FractionalKernel.getDerivativeKernel", "nl/PyNucleus_nl/kernelsCy.pyx:FractionalKernel.getHessianKernel", "nl/PyNucleus_nl/kernelsCy.pyx:FractionalKernel.getBoundaryKernel", "nl/PyNucleus_nl/kernelNormalization.pyx:constantFractionalLaplacianScaling.__init__", "nl/PyNucleus_nl/kernelNormalization.pyx:constantFractionalLaplacianScalingDerivative.__init__", "nl/PyNucleus_nl/kernelNormalization.pyx:constantFractionalLaplacianScalingDerivative.evalPtr", "nl/PyNucleus_nl/kernelNormalization.pyx:variableFractionalLaplacianScaling.evalPtr", "nl/PyNucleus_nl/kernels.py:getFractionalKernel"]}
{"id": "C74", "title": "Normalised kernels have unit second moments", "statement": "A kernel that `getFractionalKernel` or `getIntegrableKernel` returns with `normalized=True` and a finite horizon satisfies `\u222b z_i z_j \u03b3(x, x+z) dz = \u03b4_ij`, so that the nonlocal operator `2\u222b (u(y)-u(x)) \u03b3(x,y) dy` tends to the Laplacian when the horizon tends to zero; normalised Gaussian kernels of infinite horizon have mass 1/2, independently of the variance.", "quantifier": "for all horizons, orders in (0, 1), variances, exponential rates, all points x, all interaction domains accepted by the code", "why_tests_cant": "The constants are closed formulas with \u03c0, the error function and exponentials, one for each kernel, dimension and interaction domain. A wrong factor gives a solution scaled by a constant, which a test of convergence rates does not have to show.", "anchors": ["nl/PyNucleus_nl/kernelNormalization.pyx:constantIntegrableScaling.__init__", "nl/PyNucleus_nl/kernelNormalization.pyx:constantFractionalLaplacianScaling.__init__", "nl/PyNucleus_nl/kernels.py:getIntegrableKernel", "nl/PyNucleus_nl/kernels.py:getFractionalKernel", "nl/PyNucleus_nl/kernels.py:_getInteraction", "nl/PyNucleus_nl/kernelsCy.pyx:Kernel.__init__"]}
{"id": "C75", "title": "Fractional orders keep what they declare", "statement": "The members `min` and `max` of a fractional order bound its values at all pairs of points, `symmetric` implies `s(x,y) = s(y,x)`, `evalGrad` gives the partial derivatives with respect to the parameters, the values follow the documented regions (left/right, inside/outside, islands, layers, transition zones), the sum of two orders evaluates to the sum, and an order that is rebuilt from `__reduce__` is the same order.", "quantifier": "for all parameters, all points, all numbers of layers, blocks and dofs", "why_tests_cant": "min, max and symmetric choose quadrature orders and the skipping of half of the pairs, so an order that violates them gives wrong matrices without an error. A test can only evaluate some orders at some points.", "anchors": ["nl/PyNucleus_nl/fractionalOrders.pyx:constFractionalOrder", "nl/PyNucleus_nl/fractionalOrders.pyx:variableFractionalOrder.__add__", "nl/PyNucleus_nl/fractionalOrders.pyx:singleVariableUnsymmetricFractionalOrder", "nl/PyNucleus_nl/fractionalOrders.pyx:lambdaFractionalOrder", "nl/PyNucleus_nl/fractionalOrders.pyx:variableConstFractionalOrder", "nl/PyNucleus_nl/fractionalOrders.pyx:piecewiseConstantFractionalOrder.__init__", "nl/PyNucleus_nl/fractionalOrders.pyx:piecewiseConstantFractionalOrderFun", "nl/PyNucleus_nl/fractionalOrders.pyx:leftRightFractionalOrder", "nl/PyNucleus_nl/fractionalOrders.pyx:leftRightFractionalOrderFun", "nl/PyNucleus_nl/fractionalOrders.pyx:smoothStep", "nl/PyNucleus_nl/fractionalOrders.pyx:linearStep", "nl/PyNucleus_nl/fractionalOrders.pyx:lookupExtended", "nl/PyNucleus_nl/fractionalOrders.pyx:feFractionalOrder", "nl/PyNucleus_nl/fractionalOrders.pyx:innerOuterFractionalOrder", "nl/PyNucleus_nl/fractionalOrders.pyx:innerOuterFractionalOrderFun", "nl/PyNucleus_nl/fractionalOrders.pyx:sumFractionalOrder", "nl/PyNucleus_nl/fractionalOrders.pyx:islandsFractionalOrderFun", "nl/PyNucleus_nl/fractionalOrders.pyx:layersFractionalOrder", "nl/PyNucleus_nl/fractionalOrders.pyx:layersFractionalOrderFun", "nl/PyNucleus_nl/fractionalOrders.pyx:smoothedInnerOuterFractionalOrder"]}
{"id": "C76", "title": "Arithmetic of functions is pointwise", "statement": "Sums, differences, products, multiples and negatives of function objects evaluate to the sums, \u2026 of the values, whatever the operands are themselves built of, also for vector valued functions; matrix valued functions store their components, with the flag `symmetric` a symmetric matrix, the same with `eval` and `evalPtr`; indicators are the characteristic functions of balls and boxes and objects that compare equal are equal functions; `periodicityFunctor` is periodic and a function that is rebuilt from `__reduce__` is the same function.", "quantifier": "for all function objects built by the arithmetic, all points, dimensions, numbers of components, over every commutative ring or ordered field", "why_tests_cant": "Right hand sides, coefficients and boundary data of all solvers are built by this arithmetic; the special cases for multiples and sums of `__add__`, `__sub__`, `__neg__` are met only by particular combinations, which a test cannot enumerate.", "anchors": ["fem/PyNucleus_fem/functions.pyx:function.__add__", "fem/PyNucleus_fem/functions.pyx:function.__sub__", "fem/PyNucleus_fem/functions.pyx:function.__mul__", "fem/PyNucleus_fem/functions.pyx:function.__neg__", "fem/PyNucleus_fem/functions.pyx:sumFunction.eval", "fem/PyNucleus_fem/functions.pyx:mulFunction.eval", "fem/PyNucleus_fem/functions.pyx:prodFunction.eval", "fem/PyNucleus_fem/functions.pyx:complexFunction", "fem/PyNucleus_fem/functions.pyx:vectorFunction.__add__", "fem/PyNucleus_fem/functions.pyx:vectorFunction.__sub__", "fem/PyNucleus_fem/functions.pyx:vectorFunction.__mul__", "fem/PyNucleus_fem/functions.pyx:componentVectorFunction.eval", "fem/PyNucleus_fem/functions.pyx:sumVectorFunction.eval", "fem/PyNucleus_fem/functions.pyx:mulVectorFunction.eval", "fem/PyNucleus_fem/functions.pyx:matrixFunction.eval", "fem/PyNucleus_fem/functions.pyx:matrixFunction.evalPtr", "fem/PyNucleus_fem/functions.pyx:affineFunction.eval", "fem/PyNucleus_fem/functions.pyx:sqrtAffineFunction.__reduce__", "fem/PyNucleus_fem/functions.pyx:radialIndicator.eval", "fem/PyNucleus_fem/functions.pyx:radialIndicator.__eq__", "fem/PyNucleus_fem/functions.pyx:squareIndicator.eval", "fem/PyNucleus_fem/functions.pyx:squareIndicator.__eq__", "fem/PyNucleus_fem/functions.pyx:proj.eval", "fem/PyNucleus_fem/functions.pyx:indicatorFunctor.eval", "fem/PyNucleus_fem/functions.pyx:periodicityFunctor.eval", "fem/PyNucleus_fem/functions.pyx:shiftScaleFunctor.eval"]}
{"id": "C77", "title": "Manufactured solutions solve their equations", "statement": "The provided exact solutions and right-hand sides belong together: \u2212\u0394 sol = rhs for the sine, cosine, boundary layer, boundary singularity, corner and Fichera functions, u_t \u2212 \u0394u = rhs for the heat functions, the reaction\u2013diffusion, Gray\u2013Scott, fractional and Brusselator pairs solve the systems with the provided nonlinearities, gradients of nonlinearities are derivatives, `solFractionalDerivative` is the derivative of `solFractional` with respect to the order, and the normal derivative provided for the cosine is its normal derivative.", "quantifier": "for all parameters (wave numbers, radii, orders, times, coefficients) and all points where the functions are smooth", "why_tests_cant": "Convergence of the solvers is judged with these functions, so an inconsistent pair either makes a correct solver fail or is not noticed as long as the pair is not used.", "anchors": ["fem/PyNucleus_fem/functions.pyx:_rhsFunSin1D", "fem/PyNucleus_fem/functions.pyx:_solSin1D", "fem/PyNucleus_fem/functions.pyx:_cos1D", "fem/PyNucleus_fem/functions.pyx:_rhsFunSin2D", "fem/PyNucleus_fem/functions.pyx:_solSin2D", "fem/PyNucleus_fem/functions.pyx:_cos2D", "fem/PyNucleus_fem/functions.pyx:_rhsCos2D", "fem/PyNucleus_fem/functions.pyx:_grad_cos2d_n", "fem/PyNucleus_fem/functions.pyx:_rhsFunSin3D", "fem/PyNucleus_fem/functions.pyx:_solSin3D", "fem/PyNucleus_fem/functions.pyx:_rhsBoundaryLayer2D", "fem/PyNucleus_fem/functions.pyx:_solBoundaryLayer2D", "fem/PyNucleus_fem/functions.pyx:_solCornerSingularity2D", "fem/PyNucleus_fem/functions.pyx:rhsBoundarySingularity2D", "fem/PyNucleus_fem/functions.pyx:solBoundarySingularity2D", "fem/PyNucleus_fem/functions.pyx:_rhsFichera", "fem/PyNucleus_fem/functions.pyx:_solFichera", "fem/PyNucleus_fem/functions.pyx:rhsFunCos1DHeat", "fem/PyNucleus_fem/functions.pyx:solCos1DHeat", "fem/PyNucleus_fem/functions.pyx:rhsFunCos2DHeat", "fem/PyNucleus_fem/functions.pyx:solCos2DHeat", "fem/PyNucleus_fem/functions.pyx:rhsFunCos2DNonlinear", "fem/PyNucleus_fem/functions.pyx:rhsFunCos2DNonlinear_U", "fem/PyNucleus_fem/functions.pyx:rhsFunCos2DNonlinear_V", "fem/PyNucleus_fem/functions.pyx:rhsTestGrayScott2D_U", "fem/PyNucleus_fem/functions.pyx:rhsTestGrayScott2D_V", "fem/PyNucleus_fem/functions.pyx:solFractional", "fem/PyNucleus_fem/functions.pyx:solFractionalDerivative", "fem/PyNucleus_fem/functions.pyx:rhsFractional1D", "fem/PyNucleus_fem/functions.pyx:solFractional1D", "fem/PyNucleus_fem/functions.pyx:rhsFractional2D", "fem/PyNucleus_fem/functions.pyx:solFractional2D", "fem/PyNucleus_fem/functions.pyx:rhsTestFractional_U", "fem/PyNucleus_fem/functions.pyx:rhsTestFractional_V", "fem/PyNucleus_fem/functions.pyx:rhsFractionalBrusselator_U", "fem/PyNucleus_fem/functions.pyx:rhsFractionalBrusselator_V", "fem/PyNucleus_fem/femCy.pyx:gray_scott.eval", "fem/PyNucleus_fem/femCy.pyx:gray_scott_gradient.eval", "fem/PyNucleus_fem/femCy.pyx:brusselator.eval", "fem/PyNucleus_fem/femCy.pyx:CahnHilliard_F.eval", "fem/PyNucleus_fem/femCy.pyx:CahnHilliard_F_prime.eval"]}
{"id": "C78", "title": "Two-point functions keep what they declare", "statement": "A two-point function that is flagged `symmetric` has the same value when its arguments are exchanged; `eval` and `evalPtr` agree; products, inverses and functions with a fixed argument have the corresponding values and flags; the tensors are the entries of the projection to the direction of the difference, and a matrix gives the corresponding combination; left-right functions have the value of the pair of sides; the left and right function of an interface add up to 1; the smoothed function moves from the left to the right value and keeps them outside of the transition zone; the lookup function is the bilinear form of its matrix; and every function is rebuilt by `__reduce__`.", "quantifier": "for all two-point functions built from the classes by products and inverses, all parameters and all points", "why_tests_cant": "The nonlocal assembly evaluates only one order of the arguments when the flag is set, and calls only one of the two ways of evaluation; a wrong flag or value changes matrix entries only for some pairs of points.", "anchors": ["nl/PyNucleus_nl/twoPointFunctions.pyx:lambdaTwoPoint.eval", "nl/PyNucleus_nl/twoPointFunctions.pyx:matrixTwoPoint.evalPtr", "nl/PyNucleus_nl/twoPointFunctions.pyx:matrixTwoPoint.eval", "nl/PyNucleus_nl/twoPointFunctions.pyx:matrixTwoPoint.__reduce__", "nl/PyNucleus_nl/twoPointFunctions.pyx:leftRightTwoPoint.evalPtr", "nl/PyNucleus_nl/twoPointFunctions.pyx:interfaceTwoPoint.evalPtr", "nl/PyNucleus_nl/twoPointFunctions.pyx:temperedTwoPoint.evalPtr", "nl/PyNucleus_nl/twoPointFunctions.pyx:tensorTwoPoint.evalPtr", "nl/PyNucleus_nl/twoPointFunctions.pyx:smoothedLeftRightTwoPoint.evalPtr", "nl/PyNucleus_nl/twoPointFunctions.pyx:unsymTwoPoint.evalPtr", "nl/PyNucleus_nl/twoPointFunctions.pyx:inverseTwoPoint.evalPtr", "nl/PyNucleus_nl/twoPointFunctions_{SCALAR}.pxi:twoPointFunction.__mul__", "nl/PyNucleus_nl/twoPointFunctions_{SCALAR}.pxi:twoPointFunction.fixedX", "nl/PyNucleus_nl/twoPointFunctions_{SCALAR}.pxi:productTwoPoint.evalPtr", "nl/PyNucleus_nl/twoPointFunctions_{SCALAR}.pxi:constantTwoPoint.evalPtr", "nl/PyNucleus_nl/twoPointFunctions_{SCALAR}.pxi:lookupTwoPoint.evalPtr"]}
{"id": "C79", "title": "Face dictionary behaves as a finite map", "statement": "`faceVals` behaves as a finite map from triples of numbers to numbers: `enterValue` of a new key stores and returns the value, of a present key returns the stored value and, with `deleteHits`, removes the key; `getValue` returns the stored value or \u22121; the iteration lists exactly the keys, each once, in lexicographic order; `nnz` is the number of keys; and no call touches memory outside of the allocation.", "quantifier": "for all histories of calls on existing rows, all initial lengths and increments", "why_tests_cant": "Faces are found again or removed depending on the history of insertions; the row counters are 8-bit numbers, so that a defect appears only when many keys share the first number.", "anchors": ["fem/PyNucleus_fem/meshCy.pyx:faceVals.__init__", "fem/PyNucleus_fem/meshCy.pyx:faceVals.enterValue", "fem/PyNucleus_fem/meshCy.pyx:faceVals.getValue", "fem/PyNucleus_fem/meshCy.pyx:faceVals.startIter", "fem/PyNucleus_fem/meshCy.pyx:faceVals.next"]}
{"id": "C80", "title": "Finding the cell of a point", "statement": "A `cellFinder2` can be set up for every mesh. For every point of the mesh `findCell` returns a cell that contains the point and leaves its barycentric coordinates in `bary`; for every other point it returns \u22121; no call reads outside of the arrays or raises an error. A `lookupFunction` has the value of the finite element function at every point of the mesh (affine functions are reproduced by P1) and 0 elsewhere. `UniformLookup1D` is the linear interpolant of its values.", "quantifier": "for all one- and two-dimensional meshes without degenerate cells, all points, all orders in which Python sets are traversed", "why_tests_cant": "Whether a point is found depends on the box it falls into, on the sizes of the neighbouring cells and on the extent of the mesh; the failing cases are single meshes or single points at the boundary.", "anchors": ["fem/PyNucleus_fem/meshCy.pyx:cellFinder2.__init__", "fem/PyNucleus_fem/meshCy.pyx:cellFinder2.findCell", "fem/PyNucleus_fem/meshCy.pyx:cellFinder2.findCellPtr", "fem/PyNucleus_fem/meshCy.pyx:meshBase.getCellCenters", "fem/PyNucleus_fem/meshCy.pyx:meshBase.vertexInCell", "fem/PyNucleus_fem/lookupFunction.pyx:lookupFunction.eval", "fem/PyNucleus_fem/lookupFunction.pyx:UniformLookup1D.eval"]}
{"id": "C81", "title": "The simplex mapper enumerates and finds edges and faces consistently", "statement": "The loops of the simplex mapper over the edges and faces of a triangle or tetrahedron and over the edges of a face give every edge and face exactly once, with sorted vertices, and then end; finding the number of an edge or face and getting the edge or face with a number are inverse to each other, also through encoded keys; an edge or face that is not in the cell is reported; the edges of a face with an order run between its vertices in that order, each ordering of the vertices of a face belongs to exactly one order, edges of triangles run around the triangle and normals of faces point to the outside; loops over vertices give the vertices of the cell, and different loops can be used at the same time.", "quantifier": "For every cell with different vertices, every edge, face, number and order; keys for vertex numbers below 2^31; loops from any state of the mapper", "why_tests_cant": "Lookups of absent edges, the orders of faces and nested loops are not visible in mesh operations that only ask for edges that are present; a test can only try some meshes.", "anchors": ["fem/PyNucleus_fem/simplexMapper.pyx:loopOverCellEdges", "fem/PyNucleus_fem/simplexMapper.pyx:loopOverCellFaces", "fem/PyNucleus_fem/simplexMapper.pyx:loopOverFaceEdges", "fem/PyNucleus_fem/simplexMapper.pyx:findEdgeInCell", "fem/PyNucleus_fem/simplexMapper.pyx:getEdgeInCell", "fem/PyNucleus_fem/simplexMapper.pyx:findFaceInCell", "fem/PyNucleus_fem/simplexMapper.pyx:getFaceInCell", "fem/PyNucleus_fem/simplexMapper.pyx:getFaceVerticesLocal", "fem/PyNucleus_fem/simplexMapper.pyx:getFaceEdgesLocal", "fem/PyNucleus_fem/simplexMapper.pyx:startLoopOverCellNodes"]}
{"id": "C82", "title": "Refining a mesh interface keeps the two sides matched", "statement": "A mesh interface lists vertices, edges and faces of a subdomain that are shared with another subdomain, edges and faces together with an order of their vertices, and cells of an overlap. When the mesh is refined and the interface is refined after it, the new interface is valid for the refined mesh, keeps the vertices, replaces each edge by its two halves and each face by its four quarters, in an order given by the order of the vertices, and each cell by its children; the points of the new interface are determined by the points of the old one. So two subdomains whose interfaces list the same points in the same order still do after each of them refines its own mesh, whatever the local numbers of cells, edges and faces and whichever diagonals are chosen inside the tetrahedra.", "quantifier": "For every mesh of intervals, triangles or tetrahedra with edges shared by few cells, every valid interface of any size, and all contents of uninitialised memory; both sides arbitrary", "why_tests_cant": "A test can only refine a few regular meshes on a handful of ranks; a mismatch of orders shows only for particular combinations of local face numbers and orders on the two sides.", "anchors": ["fem/PyNucleus_fem/meshOverlaps.pyx:sharedMesh.refine", "fem/PyNucleus_fem/simplexMapper.pyx:getFaceVerticesGlobal", "fem/PyNucleus_fem/simplexMapper.pyx:getEdgeVerticesGlobal"]}
{"id": "C83", "title": "The degrees of freedom of a mesh interface correspond on its two sides", "statement": "The degrees of freedom that an interface gives are the interior degrees of freedom on the closures of the shared vertices, edges and faces and the degrees of freedom inside of the overlap, each once, in the order of their first occurrence, whichever way of collecting them is chosen. If the two sides of an interface list the same points in the same order and agree on the boundary of the domain, their lists of degrees of freedom have the same length and corresponding degrees of freedom are at the same point, for all Lagrange elements.", "quantifier": "For every mesh, every valid interface with any number of vertices, edges, faces and cells, every numbering of the degrees of freedom, in 1D, 2D and 3D, for P1, P2 and P3", "why_tests_cant": "A test can only exchange vectors over a few interfaces of regular meshes; a wrong order of two degrees of freedom on an edge, or a wrong set for an overlap with all cells, needs particular combinations of numbers.", "anchors": ["fem/PyNucleus_fem/meshOverlaps.pyx:sharedMesh.getDoFs", "fem/PyNucleus_fem/meshOverlaps.pyx:dofCheckerSet.add", "fem/PyNucleus_fem/meshOverlaps.pyx:dofCheckerArray.add"]}
{"id": "C84", "title": "Splitting a mesh and its degrees of freedom", "statement": "meshSplitter.getSubMap renames the degrees of freedom of the selected cells one-to-one and without gaps and keeps which of them are on the boundary; getSubMapOnFullMesh gives the same numbers on the selected cells and takes exactly the degrees of freedom of other cells only to the boundary; the restriction returned by getRestrictionProlongation takes the coefficient of every degree of freedom to its new place and the prolongation extends by zero; meshSplitter2 divides the cells by the rounded values of the indicator and rejects values that are not 0..k-1; the map of dofmapSplitter on the submesh keeps all degrees of freedom and their numbers; the submesh keeps the tags of the part of the boundary it has in common with the mesh; getSubMapRestrictionProlongation gives the same restriction when it is given the indicator.", "quantifier": "all tables of degrees of freedom, all lists of cells, all indicators, all coefficient vectors", "why_tests_cant": "A numbering that is already in the order of the cells hides errors; the statement is about every numbering and every choice of cells.", "anchors": ["fem/PyNucleus_fem/splitting.pyx:meshSplitter.getSubMap", "fem/PyNucleus_fem/splitting.pyx:meshSplitter.getSubMapOnFullMesh", "fem/PyNucleus_fem/splitting.pyx:meshSplitter.getRestrictionProlongation", "fem/PyNucleus_fem/splitting.pyx:meshSplitter2.createSubdomains", "fem/PyNucleus_fem/splitting.pyx:dofmapSplitter.getSubMapOnSubMesh", "fem/PyNucleus_fem/DoFMaps.pyx:getSubMapRestrictionProlongation", "fem/PyNucleus_fem/DoFMaps.pyx:getSubMapRestrictionProlongation2", "fem/PyNucleus_fem/meshCy.pyx:getSubmesh"]}
{"id": "C85", "title": "Layers of cells at the boundary", "statement": "boundaryLayer finds for every cell the cells on the other side of its sides and as boundary cells exactly those with a side that no other cell has; getLayer returns the layers of breadth first search over common vertices; refine, called up to afterRefinements times on a hierarchy of refined meshes, keeps exactly the cells of the first ceil(depth/(refinements left)) layers of the new mesh, so that after all refinements getLayer(k) with k <= depth gives the layers of the whole mesh, and keeps the connectivity and the boundary cells up to date; in any dimension and for any number of refinements.", "quantifier": "all conforming meshes of intervals and oriented triangles, all numbers of refinements, all depths; connectivity and layers also for tetrahedra", "why_tests_cant": "That pruning never removes a cell that is needed later is a statement about all meshes and all layers; a test can only try some hierarchies.", "anchors": ["fem/PyNucleus_fem/boundaryLayerCy.pyx:boundaryLayer.getBoundaryAndConnectivity", "fem/PyNucleus_fem/boundaryLayerCy.pyx:boundaryLayer.getLayer", "fem/PyNucleus_fem/boundaryLayerCy.pyx:boundaryLayer.prune", "fem/PyNucleus_fem/boundaryLayerCy.pyx:boundaryLayer.refine", "fem/PyNucleus_fem/boundaryLayerCy.pyx:boundaryLayer.vertex2cells"]}
{"id": "C86", "title": "Structured meshes are triangulations", "statement": "uniformSquare (with or without crossed diagonals, equidistant or with given grid lines), the uniform variant of squareWithInteractions, box, boxWithInteractions, simpleBox, simpleLshape and simpleFicheraCube return meshes with valid vertex numbers and distinct vertices, whose cells are positively oriented, cover exactly the domain, and meet only in faces spanned by common vertices; uniformSquare accepts only lines to preserve that are grid lines; boxWithInteractions has the numbers of points asked for and grid lines at most the horizon apart.", "quantifier": "all increasing grid lines and all numbers of points (at least two per direction), over every ordered field", "why_tests_cant": "Counts and volumes of some meshes do not show it: that no two cells overlap and no point is missed is a statement about all points of the domain.", "anchors": ["fem/PyNucleus_fem/mesh.py:uniformSquare", "fem/PyNucleus_fem/mesh.py:squareWithInteractions", "fem/PyNucleus_fem/mesh.py:box", "fem/PyNucleus_fem/mesh.py:boxWithInteractions", "fem/PyNucleus_fem/mesh.py:simpleBox", "fem/PyNucleus_fem/mesh.py:simpleLshape", "fem/PyNucleus_fem/mesh.py:simpleFicheraCube"]}
{"id": "C87", "title": "Meshes of intervals cover the domain and the interaction layers, and refinement keeps the grading", "statement": "The mesh generators of intervals return increasing vertices with cells that join neighbours. `simpleInterval` is equidistant. `intervalWithInteraction` contains an equidistant mesh of [a,b] of width at most h, and layers of at least the horizon up to the tolerance, of exactly the horizon with strictInteraction. `doubleIntervalWithInteractions` has all ends of the intervals and of the interaction layers as vertices and cells of the wanted width. `gradedIntervals` of adjacent intervals in any order is a mesh of their union with vertices at the ends of the intervals, no cell is wider than h, and refinement with the attached transformation keeps the grading: after n refinements the vertices are those of the same grading with 2^n times as many cells.", "quantifier": "all interval ends, horizons, mesh widths, tolerances, numbers and orders of intervals, exponents, and numbers of refinements", "why_tests_cant": "Numbers of cells are computed with truncations, ceilings, and tolerances whose border cases depend on the input, and the grading is kept by refinement only if generator and transformation agree in all cases; a test can only try some intervals and horizons.", "anchors": ["fem/PyNucleus_fem/mesh.py:simpleInterval", "fem/PyNucleus_fem/mesh.py:intervalWithInteraction", "fem/PyNucleus_fem/mesh.py:doubleIntervalWithInteractions", "fem/PyNucleus_fem/mesh.py:gradedIntervals", "fem/PyNucleus_fem/meshCy.pyx:multiIntervalMeshTransformer"]}
{"id": "C88", "title": "The boundary of a mesh by cells and local numbers has each vertex, edge, and face once and has no boundary itself", "statement": "For meshes of intervals, triangles, and tetrahedra in which the vertices of a cell differ, `boundary1D`, `boundary2D`, and `boundary3D` return each boundary vertex, edge, and face of the mesh exactly once, as the number of a cell that contains it and its local number in this cell, whatever the order of the cells, of their vertices, and of the dictionaries. The boundary is closed: an even number of boundary edges meets at each vertex and an even number of boundary faces at each edge. With assumeConnected nothing is written outside of the arrays, the result does not change, and an error is raised exactly if the domain has a hole.", "quantifier": "all meshes of every dimension, all numberings of vertices and cells, all orders of dictionary items", "why_tests_cant": "The sizes of the arrays rely on the number of boundary vertices being at most that of the edges, a fact about all closed polygons; a test can only try some meshes.", "anchors": ["fem/PyNucleus_fem/meshOverlaps.pyx:boundary1D", "fem/PyNucleus_fem/meshOverlaps.pyx:boundary2D", "fem/PyNucleus_fem/meshOverlaps.pyx:boundary3D"]}
{"id": "C89", "title": "Transformations of refined meshes keep balls, spheres, and gradings", "statement": "Refinement with a mesh transformation moves new vertices only. `radialMeshTransformer` keeps the direction of a midpoint and gives it the mean of the distances of the ends of the edge from the origin; hence all refinements of a mesh of a disc, a shell, or a sphere are in the disc, the shell, or the sphere, no coordinate becomes NaN, the circles of `uniform_disc` are refined to twice as many circles, and a hole of the given radius stays a hole. `gradedMeshTransformer` and `gradedHypercubeTransformer` halve the grading parameter: distances or coordinates that are gradings of multiples of 1/N become gradings of multiples of 1/(2N). `gradeMesh` with `gradeUniformBall` keeps directions, the origin and the inner sphere, and is increasing.", "quantifier": "all meshes of intervals, triangles, and tetrahedra, all numbers of refinements, radii, exponents, and factors", "why_tests_cant": "Divisions by zero at the origin and wrong scalings appear only for some meshes, and staying in the ball is a statement about all numbers of refinements.", "anchors": ["fem/PyNucleus_fem/meshCy.pyx:radialMeshTransformer", "fem/PyNucleus_fem/meshCy.pyx:gradedMeshTransformer", "fem/PyNucleus_fem/meshCy.pyx:gradedHypercubeTransformer", "fem/PyNucleus_fem/meshCy.pyx:radialMeshTransformation", "fem/PyNucleus_fem/mesh.py:uniform_disc", "fem/PyNucleus_fem/mesh.py:sphere1", "fem/PyNucleus_fem/mesh.py:ballNd", "fem/PyNucleus_fem/mesh.py:gradeMesh", "fem/PyNucleus_fem/mesh.py:gradeUniformBall"]}
{"id": "C90", "title": "Sums of segments, polygons, and joined meshes have the sides and cells of their parts", "statement": "The sum of two segments draws the facets of both summands, its points are those of the summands with each place once, and no two points are nearer than the tolerance of the tree. Translated and rotated segments draw translated and rotated facets, distances are kept, and their mesh transformations are those of the segment in the moved coordinates. `line` goes from start to end in steps of equal size; `polygon` draws its sides, closed if wanted; `rectangle` draws a rectangle. The transformation of `circularSegment` moves midpoints of edges in its sector to the mean distance from the centre and never divides by zero. `snapMeshes` keeps the first mesh and appends the cells of the second one with vertices at the same places; if neither mesh has two vertices at one place, the joined mesh has none.", "quantifier": "all segments, vectors, angles, polygons, meshes, and orders in which the trees report pairs", "why_tests_cant": "Wrong merges show only for points met by several segments, and wrong transformations only after refinement of moved shapes with several arcs.", "anchors": ["fem/PyNucleus_fem/meshConstruction.py:segment", "fem/PyNucleus_fem/meshConstruction.py:line", "fem/PyNucleus_fem/meshConstruction.py:polygon", "fem/PyNucleus_fem/meshConstruction.py:rectangle", "fem/PyNucleus_fem/meshConstruction.py:circularSegment", "fem/PyNucleus_fem/mesh.py:snapMeshes"]}
{"id": "C91", "title": "Scaled, sliced, split, and wrapped matrices have the entries they stand for", "statement": "scaleLeft, scaleRight, scale, and setZero multiply the entries by the factor of row, column, or all, and keep the pattern. getBlockDiagonal keeps exactly the entries whose row and column lie in one block. restrictionOp and prolongationOp are products with I + J/2 for the pattern J, in all products offered and in any order of the rows, and the prolongation with the transposed graph is the adjoint of the restriction. Slices of graphs have the rows or columns of the slice. split_CSR_LinearOperator is the sum of its parts, Triple_Product_Linear_Operator the product of three matrices whatever its temporaries held, wrapped real matrices are the complex products with them, and the shifted operator is the product with S + shift M with the diagonal of this matrix.", "quantifier": "all valid matrices, graphs, vectors, blocks, orders of rows, and contents of uninitialised arrays", "why_tests_cant": "Reuse of arrays that are overwritten while they are read shows only for some patterns and slices; a test can only try some of them.", "anchors": ["base/PyNucleus_base/CSR_LinearOperator_{SCALAR}.pxi:scaleLeft", "base/PyNucleus_base/CSR_LinearOperator_{SCALAR}.pxi:scaleRight", "base/PyNucleus_base/CSR_LinearOperator_{SCALAR}.pxi:getBlockDiagonal", "base/PyNucleus_base/linear_operators.pyx:restrictionOp", "base/PyNucleus_base/linear_operators.pyx:prolongationOp", "base/PyNucleus_base/linear_operators.pyx:split_CSR_LinearOperator", "base/PyNucleus_base/linear_operators.pyx:Triple_Product_Linear_Operator", "base/PyNucleus_base/linear_operators.pyx:sparseGraph", "base/PyNucleus_base/linear_operators.pyx:wrapRealToComplex", "base/PyNucleus_base/linear_operators.pyx:wrapRealToComplexCSR", "base/PyNucleus_base/linear_operators.pyx:HelmholtzShiftOperator"]}
{"id": "C92", "title": "Cells that extend a subdomain arrive at their places and are listed alike on both sides", "statement": "When subdomains are extended by layers of cells of their neighbours, vertex numbers that are translated for a neighbour can be translated back there and stand for vertices at the same places, whatever both sides have sent or received before. Vertices that come from several neighbours are entered once, and all numbers keep their places when duplicates are removed. The overlaps of two subdomains list the same cells in the same order on both sides, including the cells a third subdomain has sent to both, and shared vertices are sorted alike. The cells to send are those with a vertex of the interface, in layers. The vertices, edges, and faces that are appended to the boundary are exactly those of the boundary of the extended mesh that were not there before, each once.", "quantifier": "all numbers of subdomains, neighbours, interfaces, cells that are sent, orders of dictionaries and sets, meshes", "why_tests_cant": "Wrong numbers show only where three subdomains meet, for boundary edges stored in another direction, or for large coordinates.", "anchors": ["fem/PyNucleus_fem/meshOverlaps.pyx:vertexMap", "fem/PyNucleus_fem/meshOverlaps.pyx:vertexMapManager", "fem/PyNucleus_fem/meshOverlaps.pyx:updateBoundary1D", "fem/PyNucleus_fem/meshOverlaps.pyx:updateBoundary2D", "fem/PyNucleus_fem/meshOverlaps.pyx:updateBoundary3D", "fem/PyNucleus_fem/meshOverlaps.pyx:getBoundaryCells", "fem/PyNucleus_fem/meshOverlaps.pyx:extendOverlap"]}
{"id": "C93", "title": "Stitched subdomains form the mesh they were cut from", "statement": "Stitching subdomain meshes along their interfaces or overlaps gives a mesh in which every point of the subdomains is one vertex, every cell of a subdomain occurs exactly once with the same points, and the table of local cells says for every global cell exactly which subdomains hold it and where. Boundary vertices, edges, and faces carry the largest tag a subdomain gave them, or are kept only if one subdomain has them. Solutions that agree where subdomains overlap are put together: the entry of a global dof is the entry of the local dofs at the same point, and dofs without a local value keep their entry. The mapping of a subdomain sends each local dof to the global dof of the same point.", "quantifier": "all numbers of subdomains, meshes, interfaces or overlaps that satisfy what the partitioner promises, boundary tags, dof numberings, and solution vectors", "why_tests_cant": "The result depends on the order of the subdomains and on points that belong to subdomains without a common cell; a test can only stitch some meshes that are cut in some ways.", "anchors": ["fem/PyNucleus_fem/mesh.py:stitchNonoverlappingMeshes", "fem/PyNucleus_fem/mesh.py:stitchOverlappingMeshes", "fem/PyNucleus_fem/mesh.py:stitchSolutions", "fem/PyNucleus_fem/mesh.py:getMappingToGlobalDoFMap"]}
{"id": "C94", "title": "Distributed inner products and norms are those of the global vectors", "statement": "The distributed inner product of two vectors is the inner product of the global vectors they stand for, each dof counted once, for every combination of accumulated vectors and vectors that are sums of parts, and whatever the temporary memory holds. The norm is the Euclidean norm of the global vector. The complex versions conjugate the first argument. The convergence criterion stops at the first call at which the global norm is below the tolerance, or at call maxiter.", "quantifier": "all numbers of ranks, consistent overlaps on any number of levels, vectors, flags, states of the temporary memory, executions of accumulate", "why_tests_cant": "A dof counted twice or with the weights of another level is hidden by small overlaps and tolerances.", "anchors": ["base/PyNucleus_base/ip_norm.pyx:ip_distributed", "base/PyNucleus_base/ip_norm.pyx:norm_distributed", "base/PyNucleus_base/ip_norm.pyx:ip_distributed_nonoverlapping", "base/PyNucleus_base/ip_norm.pyx:wrapRealInnerToComplex", "base/PyNucleus_base/ip_norm.pyx:wrapRealNormToComplex", "base/PyNucleus_base/convergence.pyx:synchronousConvergenceCriterion", "fem/PyNucleus_fem/algebraicOverlaps.pyx:multilevelAlgebraicOverlapManager"]}
{"id": "C95", "title": "Schur complements and linear combinations of operators", "statement": "The Schur complement of an operator with respect to a set of dofs maps x to the entries of A z at these dofs, where z extends x such that A z vanishes at all other dofs. It is symmetric or positive definite if the operator is, its energy is the least energy of all extensions, and systems with the Schur complement are equivalent to systems with the operator and zero right-hand side at the other dofs. A linear combination of operators multiplies with the linear combination of the matrices, in all four variants of the product.", "quantifier": "all operators, sets of dofs in any order, exact solvers with any initial guess, contents of temporary vectors, numbers of operators, coefficients, vectors", "why_tests_cant": "Wrong index sets, leftovers in temporary vectors, and rectangular operators do not have to show for one matrix.", "anchors": ["base/PyNucleus_base/SchurComplement_{SCALAR}.pxi:SchurComplement", "base/PyNucleus_base/linear_operators.pyx:sumMultiplyOperator"]}
{"id": "C96", "title": "A mesh gives the same answers about its boundary however it is asked, copied, stored or renumbered", "statement": "The boundary vertices, edges, faces, and tags of a mesh do not depend on which of them have been asked for before, and there is one tag per entity. Asking by tag gives exactly the entities with one of the tags, and the interior vertices by tag are all the others. Tagging by a function of the places gives each entity the tag of its places; replacing tags changes exactly the given tags. Copies, pickled meshes, and meshes read from a file give the same answers. Renumbering the vertices keeps all cells and boundary entities at their places with their tags. Meshes are equal only if they have the same vertices and cells.", "quantifier": "all meshes, cached or set boundaries and tags, sequences of questions, tags and lists of tags, tagging functions, permutations", "why_tests_cant": "Stale caches, tags that move to other vertices, and renumbering of cached faces show only for particular orders of calls.", "anchors": ["fem/PyNucleus_fem/mesh.py:meshNd", "fem/PyNucleus_fem/mesh.py:getBoundaryVerticesByTag", "fem/PyNucleus_fem/mesh.py:getInteriorVerticesByTag", "fem/PyNucleus_fem/mesh.py:tagBoundaryEdges", "fem/PyNucleus_fem/mesh.py:HDF5read", "fem/PyNucleus_fem/mesh.py:reorderVertices", "fem/PyNucleus_fem/mesh.py:readMesh", "fem/PyNucleus_fem/meshCy.pyx:meshBase"]}
{"id": "C97", "title": "The sizes of a mesh are the diameters, volumes and shortest edges of its cells", "statement": "For all supported dimensions, hVector has the diameters of the cells, the largest distance of any two of their points, and h is the largest of them; volVector has the volumes that the assembly uses, and volume is their sum; hmin is the length of the shortest edge; and delta is the largest ratio of the diameter of a cell and the diameter of the ball that touches all its facets.", "quantifier": "all lists of cells with real coordinates, segments in one to three dimensions, triangles in two and three, tetrahedra", "why_tests_cant": "Wrong edges or a bound on the smallest edge show only for particular shapes or scales.", "anchors": ["fem/PyNucleus_fem/meshCy.pyx:hdeltaCy", "fem/PyNucleus_fem/meshCy.pyx:volume2D_in_3D", "fem/PyNucleus_fem/meshCy.pyx:volume3D"]}
{"id": "C98", "title": "The search of cells in a cluster tree finds the cell of a point and the cells on a circle", "statement": "The distances from a point to a box are the smallest and largest distances from its points. If a box is divided in two, each of its points is in exactly one of the halves. findCell gives a cell of the tree that contains the point if there is one, and -1 otherwise. findCells gives all cells of the tree that the circle around a point goes through; no cell is lost by skipping nodes of the tree.", "quantifier": "all trees of nodes with boxes, points, radii, cells with real coordinates", "why_tests_cant": "Losing cells by skipping nodes depends on the position of circle and boxes and on the number of cells per leaf.", "anchors": ["nl/PyNucleus_nl/clusterMethodCy.pyx:minDist2FromBox", "nl/PyNucleus_nl/clusterMethodCy.pyx:distsFromBox", "nl/PyNucleus_nl/clusterMethodCy.pyx:distFromSimplex", "nl/PyNucleus_nl/clusterMethodCy.pyx:findCell", "nl/PyNucleus_nl/clusterMethodCy.pyx:findCells"]}
{"id": "C99", "title": "Estimates of eigenvalues are compressions of the operator", "statement": "estimateSpectralRadius is never more than the largest absolute value of an eigenvalue. lanczos and lanczos2 give the tridiagonal matrix of a symmetric operator in a basis that is orthonormal for the (mass) inner product and starts with the normalised start vector, so its eigenvalues lie between the bounds of the eigenvalues of the operator; with as many columns as unknowns it is the operator in other coordinates. arnoldi gives the Hessenberg matrix of the preconditioned operator in an orthonormal basis.", "quantifier": "all real matrices, symmetric where needed, start vectors, numbers of iterations and tolerances", "why_tests_cant": "Orthogonality of the vectors and the bounds are not visible in the estimates, which can only be compared with loose tolerances.", "anchors": ["base/PyNucleus_base/linalg.pyx:estimateSpectralRadius", "base/PyNucleus_base/linalg.pyx:lanczos", "base/PyNucleus_base/linalg.pyx:lanczos2", "base/PyNucleus_base/linalg.pyx:arnoldi"]}
{"id": "C100", "title": "Computed properties are never out of date", "statement": "In a class with computed dependencies, after any sequence of settings and readings, reading a property gives the value that the methods compute from the current inputs: setting an input invalidates everything computed from it, and a builder is only skipped if its arguments are those of its last call. Reading twice in a row calls no method and gives the same value.", "quantifier": "all systems of builders without cycles, all methods, all sequences of settings and readings", "why_tests_cant": "Values that are out of date appear only after particular sequences of changes.", "anchors": ["base/PyNucleus_base/utilsFem.py:classWithComputedDependencies", "base/PyNucleus_base/utilsFem.py:propertyBuilder", "base/PyNucleus_base/utilsFem.py:invalidateDependencies", "base/PyNucleus_base/utilsFem.py:addProperty"]}
{"id": "C101", "title": "Reports of timings and results are complete", "statement": "The report of timings over several ranks lists each timer of any rank exactly once, with one entry for each rank, and its mean is the mean over all calls. The comparison of results with a reference reports exactly the tested values that differ by more than the tolerances, are missing or are additional; results never differ from the reference written from them. Keys and values of a series come sorted by key, and the rate of convergence of values that follow a power (an exponential) of the key is its exponent.", "quantifier": "all numbers of ranks, all sets of timers, all entries, tolerances and references, all series", "why_tests_cant": "Which timers exist on a rank and in which order depends on the run; a test can only compare some reports with some files.", "anchors": ["base/PyNucleus_base/utilsFem.py:setOutputGroup", "base/PyNucleus_base/utilsFem.py:mergeOrdered", "base/PyNucleus_base/utilsFem.py:roc", "base/PyNucleus_base/utilsFem.py:diff", "base/PyNucleus_base/utilsFem.py:toDict", "base/PyNucleus_base/utilsFem.py:getPair"]}
{"id": "C102", "title": "Nested dictionaries of parameters and results: defaults, differences, files", "statement": "Updating from defaults keeps each given value and adds the default along each path without a value. The difference of two nested dictionaries has, along each path, exactly the values that differ or are missing on one side, and is empty exactly if there are none. A nested dictionary that was written to a file is read again with the same values along each path.", "quantifier": "all nested dictionaries of any depth, all values and comparisons", "why_tests_cant": "Nesting, missing keys and special names combine freely; a test can only write and read some dictionaries.", "anchors": ["base/PyNucleus_base/utilsFem.py:updateFromDefaults", "base/PyNucleus_base/utilsFem.py:diffDict", "base/PyNucleus_base/utilsFem.py:saveDictToHDF5", "base/PyNucleus_base/utilsFem.py:loadDictFromHDF5"]}
{"id": "C103", "title": "The connectivity of cells lists exactly the cells with enough common vertices", "statement": "The connectivity of the cells of a mesh has one set for each cell: all other cells that share at least the given number of vertices with it (at least one). Connections are mutual, no cell is connected to itself, and a larger number gives fewer connections.", "quantifier": "all meshes of any dimension, all numbers of common vertices", "why_tests_cant": "Which pairs share how many vertices depends on the whole mesh; an error shows only indirectly in partitions.", "anchors": ["fem/PyNucleus_fem/meshCy.pyx:getCellConnectivity"]}
{"id": "C104", "title": "Interpolation in the fractional order covers its range with the promised accuracy", "statement": "The intervals for the interpolation in the fractional order follow each other from the left to the right end of the range, no assertion fails, and on each interval the bound for the error of interpolation with its order is at most the given factor. The nodes of an interval are inside of it, distinct and increasing; the order that is chosen has the smallest cost. Vectors for the active parameters of an admissible set are completed with the lower bounds and admissible exactly if they are within their ranges; vectors of one of two sets are found again in the vector of both.", "quantifier": "all ranges, horizons, regularities, factors and orders; all admissible sets", "why_tests_cant": "Real parameters with conditions that hold only by estimates; a missing part of the range is not visible in single solves.", "anchors": ["nl/PyNucleus_nl/operatorInterpolation.py:getChebyIntervalsAndNodes", "nl/PyNucleus_nl/operatorInterpolation.py:admissibleSet", "nl/PyNucleus_nl/operatorInterpolation.py:admissibleSetPair"]}
{"id": "C105", "title": "The logger holds the times of the timers", "statement": "The interval of a timer that is not running is the time it ran in all of its uses, whatever the other timers do. The logger holds under a key, in the order of the events, one value for each end of a timer with this key and for each call of enterData, and the sum of these values, which the report prints, is the time the timers of this key ran. Each key is in the logger once and only if it has values; empty removes the earlier values and no others.", "quantifier": "all sequences of start, end, enterData and empty of any number of timers", "why_tests_cant": "Only the times of some runs are seen, and nobody knows how long they should have been.", "anchors": ["base/PyNucleus_base/performanceLogger.pyx:Timer.start", "base/PyNucleus_base/performanceLogger.pyx:Timer.end", "base/PyNucleus_base/performanceLogger.pyx:Timer.enterData", "base/PyNucleus_base/performanceLogger.pyx:PLogger.addValue", "base/PyNucleus_base/performanceLogger.pyx:PLogger.empty"]}
{"id": "C106", "title": "Errors of coarse solutions are those of the interpolated solutions", "statement": "The error of a level compares its solution, prolonged in space and interpolated linearly in time, with the finest one: at a time between two steps it is their mean with the weights that give the time, at a step it is the solution of this step, bounds of the solution hold for it, and times outside of the range raise an error. Solutions that are the same affine function of time on all levels have the errors zero. There is one error for each level but the finest.", "quantifier": "all numbers of levels, time steps, linear prolongations, norms", "why_tests_cant": "Errors are only compared with each other; a wrong weight changes a rate of convergence a little.", "anchors": ["base/PyNucleus_base/utilsFem.py:computeErrors"]}
{"id": "C107", "title": "Solutions on parts of a mesh and the union of two meshes keep values and places", "statement": "The solution on a part of a mesh has at each of its dofs the value of the given solution at the same dof of the same cell, and the restriction operator for the part gives the same vector; the prolongation puts the values back, with zeros elsewhere, and the restriction finds them again. The union of two meshes contains the first mesh unchanged and the cells of the second one, whose vertices are replaced by the vertices of the first mesh that are near and added otherwise; vertices that are not near to the same vertex stay different. It fails exactly if a vertex is near to two others or both meshes are transformed.", "quantifier": "all meshes, dof maps, selections of cells; all pairs of meshes and relations of nearness", "why_tests_cant": "A wrong value is only visible at single dofs; meshes that fit almost need special coordinates.", "anchors": ["fem/PyNucleus_fem/mesh.py:getSubSolution", "fem/PyNucleus_fem/mesh.py:getRestrictionProlongationSubmesh", "fem/PyNucleus_fem/mesh.py:snapMeshes"]}
{"id": "C108", "title": "Renumbering of degrees of freedom keeps them apart and complete", "statement": "The map on a reduced mesh has the same dofs as the given one, and the entries on its boundary get the numbers -1, -2, ... without gaps, different entries different numbers; without a selection exactly the cells with a dof are kept, and a selection is refused exactly if a dof would be lost. Sorting renumbers the dofs by a bijection that brings their coordinates into order. With a periodicity two dofs get the same number if and only if they have the same image; the new numbers are 0, ..., n-1 in the order of the images, and an idempotent map identifies every dof with its image.", "quantifier": "all tables of dofs, selections of cells, orders and images", "why_tests_cant": "Lost or merged dofs only appear for special selections and images; singular matrices far away are the first sign.", "anchors": ["fem/PyNucleus_fem/DoFMaps.pyx:reorder", "fem/PyNucleus_fem/DoFMaps.pyx:getReducedMeshDoFMap", "fem/PyNucleus_fem/DoFMaps.pyx:sort", "fem/PyNucleus_fem/DoFMaps.pyx:applyPeriodicity"]}
{"id": "C109", "title": "The matrices on coarser levels are the restrictions of the matrix on the finest level", "statement": "After a hierarchy is built each coarser level has the stiffness, mass and drift matrices of the finest level, multiplied with all prolongations in between, and is marked as complete; levels that were assembled themselves are left as they are. With a reaction term the matrix A on the finest level is S + c M, and the matrix A on each coarser level is its restriction, in the general and in the symmetric format.", "quantifier": "all numbers of levels, prolongations, matrices, constant and variable reactions", "why_tests_cant": "A wrong coarse matrix only makes multigrid slower; it takes three levels and a reaction to see it.", "anchors": ["multilevelSolver/PyNucleus_multilevelSolver/levels.py:build", "multilevelSolver/PyNucleus_multilevelSolver/levels.py:buildCoarserMatrices"]}
{"id": "C110", "title": "The levels of multigrid are distributed to growing sets of processes", "statement": "The coarse grid is the finest one whose estimated number of unknowns is below the bound, and coarser than the finest grid. The number of processes does not decrease from level to level, is one on the coarse grid and all of them on the finest one. The hierarchies start with the coarse grid on the first rank and describe each level above it once, on the first ranks, with more ranks in each hierarchy than in the one before; together they have as many refinements as asked for.", "quantifier": "all numbers of refinements, ranks, dimensions, degrees, bounds, and factors up to 1", "why_tests_cant": "Each run has one number of processes and one bound; a missing level only shows up as a larger error.", "anchors": ["multilevelSolver/PyNucleus_multilevelSolver/geometricMG.py:paramsForMG"]}
{"id": "C111", "title": "Building a hierarchy gives the levels asked for", "statement": "Building succeeds for all choices and gives one level more than refinements, with consecutive numbers; only the last level is marked as such, and it cannot be refined again. Each level has the dof map, the prolongation and the matrices that its type of build asks for; dof maps between the first and the last level are only kept on request; of the meshes all, only the last one, or none are kept.", "quantifier": "all numbers of refinements, start levels, and choices of keepMeshes, assemble, keepAllDoFMaps", "why_tests_cant": "Most combinations of the options are never run together, and a missing dof map shows up only when it is used.", "anchors": ["multilevelSolver/PyNucleus_multilevelSolver/hierarchies.py:__init__", "multilevelSolver/PyNucleus_multilevelSolver/hierarchies.py:refine", "multilevelSolver/PyNucleus_multilevelSolver/hierarchies.py:build", "multilevelSolver/PyNucleus_multilevelSolver/levels.py:getLevelNo", "multilevelSolver/PyNucleus_multilevelSolver/levels.py:clean"]}
{"id": "C112", "title": "New partitions are distributed to subdomains fairly, completely and without conflicts", "statement": "In a repartitioning by several subdomains the numbers of new partitions of the subdomains add up to the number asked for, are not negative, and each differs from the share of its cells by less than one; with the offsets each new partition belongs to exactly one subdomain, and each subdomain has at least one. The reordering of partitions is a bijection that gives the partition chosen for a subdomain its number, so the subdomain keeps exactly the cells that were counted; it fails if and only if a partition is chosen twice or does not exist.", "quantifier": "all numbers of partitions, numbers of cells, partitions of the cells and choices", "why_tests_cant": "The corrections of the rounding happen only for special numbers of cells on many processes.", "anchors": ["fem/PyNucleus_fem/repartitioner.pyx:getCellPartition", "fem/PyNucleus_fem/repartitioner.pyx:reorderPartitioning"]}
{"id": "C113", "title": "A repartitioning moves each cell with its geometry to exactly one new subdomain", "statement": "In a repartitioning each new subdomain receives exactly the cells of its partition, ordered by their global numbers, with their global vertices in the same order. The overlaps stored by an old and a new subdomain are of the same length and refer to the same cells in the same order. The new cells have the vertices and coordinates of the received ones; no vertex is missing, occurs twice or belongs to no cell, whatever the order of the messages and of the elements of sets. All processes agree on the number of partitions.", "quantifier": "all numbers of processes, partitions of the cells, assignments of partitions to ranks, cells, vertices and orders of messages", "why_tests_cant": "Needs runs on many processes with partitions that spread over all of them; the errors would show only as a wrong mesh.", "anchors": ["fem/PyNucleus_fem/repartitioner.pyx:getRepartitionedSubdomains", "fem/PyNucleus_fem/repartitioner.pyx:getNumPartitions"]}
{"id": "C114", "title": "New subdomains tag their boundary correctly and find all shared vertices", "statement": "After a repartitioning each boundary vertex, edge and face of a new subdomain is stored exactly once. A boundary face (an edge in two dimensions) is tagged as interior if and only if it is in an interface; an edge or vertex is tagged as interior if and only if it is in an interface, or if it lies in boundary simplices of the next dimension none of which is physical, whatever the order of sets, dictionaries and edge tags. If two new subdomains meet at an interior vertex, then it is in a common interface of the two: they share an edge or a face there, or the vertex itself is kept.", "quantifier": "all boundary simplices, interfaces, orders and arrangements of subdomains around a vertex", "why_tests_cant": "Partitions with subdomains that meet only in one point are rare, and the effect is a missing contribution in one degree of freedom.", "anchors": ["fem/PyNucleus_fem/repartitioner.pyx:setBoundaryInformation", "fem/PyNucleus_fem/repartitioner.pyx:removeBoundary"]}
{"id": "C115", "title": "Lists of levels, files and the collapsed prolongation keep what the hierarchy has", "statement": "A hierarchy that is rebuilt from its list of levels has the same number of levels, the same attributes on each level, and levels that know the previous one; rebuilding fails if and only if there are no levels. The list of a chain of hierarchies has the levels of all of them, where the finest level of one and the coarsest of the next one are merged into one, with its prolongation. Writing levels to a file and reading them gives the levels back; writing fails if and only if the last level has nothing to write. The collapsed prolongation is the successive prolongation through all levels, and the collapsed restriction is the successive restriction.", "quantifier": "all hierarchies, attributes, files, prolongations and vectors", "why_tests_cant": "Attributes that are lost show only when a rebuilt hierarchy is used for something that needs them; chains of hierarchies need several processes.", "anchors": ["multilevelSolver/PyNucleus_multilevelSolver/levels.py:getLevelDict", "multilevelSolver/PyNucleus_multilevelSolver/levels.py:fromLevelDict", "multilevelSolver/PyNucleus_multilevelSolver/hierarchies.py:getLevelList", "multilevelSolver/PyNucleus_multilevelSolver/hierarchies.py:fromLevelList", "multilevelSolver/PyNucleus_multilevelSolver/hierarchies.py:buildCollapsedRestrictionProlongation", "multilevelSolver/PyNucleus_multilevelSolver/geometricMG.py:writeToHDF", "multilevelSolver/PyNucleus_multilevelSolver/geometricMG.py:readFromHDF"]}
{"id": "C116", "title": "Combined maps of degrees of freedom have the degrees of both, equal maps are recognised, blocks group the same coordinates", "statement": "Combining two complementary maps of degrees of freedom gives a map without boundary degrees of freedom in which the ones of the first map keep their numbers and the ones of the second map follow; it fails if and only if the numbers do not match or a local degree of freedom is in both maps or in none. Comparing two maps gives true if and only if they have the same degrees of freedom on the same mesh, and false otherwise. The blocks by coordinates have each degree of freedom exactly once, in increasing order, and two degrees of freedom are in the same block if and only if their coordinates agree up to the tolerance.", "quantifier": "all maps of degrees of freedom, coordinates and tolerances", "why_tests_cant": "Whether maps on different meshes are told apart, and whether coordinates near the borders of the blocks go to the right block, depends on the maps and on the last digits of the coordinates.", "anchors": ["fem/PyNucleus_fem/DoFMaps.pyx:combine", "fem/PyNucleus_fem/DoFMaps.pyx:__eq__", "fem/PyNucleus_fem/DoFMaps.pyx:getCoordinateBlocks"]}
{"id": "C117", "title": "Lookup functions interpolate the values on their grid", "statement": "In every point of the grid box, including its boundary, a lookup function gives the linear, bilinear or trilinear interpolation of the values at the corners of the grid cell the point is in; so it reproduces functions that are linear in each direction and its values are between the smallest and the largest value. The functions for symmetric values are symmetric in each direction.", "quantifier": "all grids, values and points with rational coordinates", "why_tests_cant": "Which points a search tree returns depends on the distances in the grid and on the position of the point, and a test can only try some points and grids.", "anchors": ["fem/PyNucleus_fem/functions.pyx:lookupFunction1D", "fem/PyNucleus_fem/functions.pyx:lookupFunctionTensor1DNew", "fem/PyNucleus_fem/functions.pyx:lookupFunctionTensor2D", "fem/PyNucleus_fem/functions.pyx:lookupFunctionTensor2DNew", "fem/PyNucleus_fem/functions.pyx:lookupFunctionTensor2DNewSym", "fem/PyNucleus_fem/functions.pyx:lookupFunctionTensor3D", "fem/PyNucleus_fem/functions.pyx:lookupFunctionTensor3DNew", "fem/PyNucleus_fem/functions.pyx:lookupFunctionTensor3DNewSym"]}
{"id": "C118", "title": "The flexible method of conjugate gradients records its residuals and makes progress", "statement": "The numbers that the flexible method of conjugate gradients records are the norms of the residuals of its iterates: the last one belongs to the vector that is returned, all others are larger than the tolerance, and the method stops only if the last one is within the tolerance or after all iterations. The energy of the returned vector is not larger than the one of the initial vector. Consecutive directions are conjugate, for every preconditioner. The result does not depend on the content of memory that has not been written.", "quantifier": "all self-adjoint matrices, preconditioners (linear or not), right-hand sides, initial vectors, contents of the memory, numbers of iterations", "why_tests_cant": "The content of fresh memory differs from run to run; if it happens to be zero, the method works.", "anchors": ["base/PyNucleus_base/linalg.pyx:flexible_cg"]}
{"id": "C119", "title": "Arguments with parameters are recognised and give the values that are written", "statement": "A command line argument that is written as a name with parameters in parentheses, separated by commas and blanks, is recognised if the texts of the parameters are of the declared types, and only then; each parameter is converted to the value that its text denotes. The interpreter of an option accepts exactly the values in its list and the arguments that are recognised, unchanged.", "quantifier": "all names, lists of types, texts and blanks", "why_tests_cant": "Texts can be combined freely; truth values and texts with something after the parameters need particular arguments. No test in the repository names this function.", "anchors": ["base/PyNucleus_base/utilsFem.py:parametrizedArg", "base/PyNucleus_base/utilsFem.py:argInterpreter"]}
{"id": "C120", "title": "Functions on a surface are extended to the volume at the places of their degrees of freedom", "statement": "The prolongation from a surface to the volume gives the value of each degree of freedom of the surface at the place of this degree of freedom in the volume and zero elsewhere, without leaving its arrays. The global shape function of a degree of freedom has in each point the value of the local shape functions of a cell with this point, so that the combination of all of them is the finite element function.", "quantifier": "all meshes, numberings of degrees of freedom, values and points", "why_tests_cant": "The numbering of vertices and degrees of freedom and the position of points decide; a test can only try some of them. No test in the repository names these functions.", "anchors": ["fem/PyNucleus_fem/femCy.pyx:getSurfaceDoFMap", "fem/PyNucleus_fem/femCy.pyx:getSurfaceToVolumeProlongation", "fem/PyNucleus_fem/DoFMaps.pyx:globalShapeFunction"]}
{"id": "C121", "title": "Dictionaries are prepared for YAML files without loss", "statement": "Preparing a dictionary for a YAML file keeps all keys, their order and all contents, gives values that can be written to a file, changes nothing if the dictionary has already been prepared, and leaves the given dictionary unchanged. It raises an exception exactly if there is an array with three dimensions.", "quantifier": "all dictionaries, with any nesting of dictionaries, lists and arrays", "why_tests_cant": "Dictionaries can be nested in any way, and a change of the given dictionary is seen only if it is used afterwards. No test in the repository names this function.", "anchors": ["base/PyNucleus_base/utilsFem.py:processDictForYaml"]}
{"id": "C122", "title": "The weights of overlapping subdomains are a partition of unity that decreases away from the original subdomain", "statement": "If the weights of overlapping subdomains are prepared without failing assertion, then distributing a vector on which all ranks agree and accumulating it gives the same vector on each rank, whatever the order of the messages. If each degree of freedom has a positive value on some rank, no assertion fails and all weights lie between zero and one. The values from which they are made are one at the vertices of the original subdomain, decrease linearly with the number of the first layer of cells that has the vertex, and are zero from the layer before the last one on; for the weights without overlap, all ranks with value one get the same part.", "quantifier": "all numbers of ranks, consistent overlaps, layers of cells, depths and vectors, and all executions", "why_tests_cant": "It is a statement about all partitions, depths and orders of messages. No test in the repository names these functions.", "anchors": ["fem/PyNucleus_fem/algebraicOverlaps.pyx:getProtoPartition", "fem/PyNucleus_fem/algebraicOverlaps.pyx:getProtoPartitionNonOverlapping", "fem/PyNucleus_fem/algebraicOverlaps.pyx:prepareDistributeMeshOverlap"]}
{"id": "C123", "title": "The jump matrix is the sum of the squares of the jumps", "statement": "The form of the jump matrix of a piecewise constant function is the sum over all faces between two cells of the square of the volume of the face times the square of the jump. So the matrix is symmetric and positive semidefinite, has the constant functions in its kernel, has no entries for cells without common face, and its form is zero only for functions without jumps.", "quantifier": "all meshes in which each face is in at most two cells, all numberings and all functions", "why_tests_cant": "It is a statement about all meshes and functions. No test in the repository names this function.", "anchors": ["fem/PyNucleus_fem/femCy.pyx:assembleJumpMatrix"]}
{"id": "C124", "title": "Centers lie in their cells, and meshes of selected cells have these cells", "statement": "The center of a cell has equal barycentric coordinates, so it lies in the cell; the projected center is the center of the smallest box around the cell and lies in the cell. A mesh that is made from new numbers of cells has each cell at its new number; a mesh that is made from a list of cells has these cells in this order.", "quantifier": "all cells of any dimension, all lists of numbers", "why_tests_cant": "Only tetrahedra show that a projected center can be outside, and only lists of one particular length show the wrong selection. No test in the repository names these functions.", "anchors": ["fem/PyNucleus_fem/meshCy.pyx:getCellCenters", "fem/PyNucleus_fem/meshCy.pyx:getProjectedCenters", "fem/PyNucleus_fem/meshCy.pyx:getSubmesh2"]}
{"id": "C125", "title": "Hierarchies of elements, parts of hierarchies, and levels on a rank", "statement": "A pCoarsenHierarchy has one level per given element, all on the same mesh, numbered consecutively and of the given type of algebraic level, and it leaves the given parameters usable for another hierarchy; getSubHierarchy returns the coarsest n+1 levels in the state of the whole; buildHierarchies makes a hierarchy exactly on the ranks that take part; getLevelList gives each rank of the finest hierarchy its levels; getSubManager ends with the hierarchy with the label; getPrintRank is the smallest rank of the finest hierarchy.", "quantifier": "All meshes, lists of elements, numbers of levels, sets of ranks, ranks, and labels.", "why_tests_cant": "Lost types, changed parameters and missing methods show only when an object is used a second time, with another type of level, or on ranks that take part in some of the hierarchies; a test can only try some combinations.", "anchors": ["multilevelSolver/PyNucleus_multilevelSolver/hierarchies.py:refine", "multilevelSolver/PyNucleus_multilevelSolver/hierarchies.py:getSubHierarchy", "multilevelSolver/PyNucleus_multilevelSolver/hierarchies.py:buildHierarchies", "multilevelSolver/PyNucleus_multilevelSolver/hierarchies.py:getLevelList", "multilevelSolver/PyNucleus_multilevelSolver/hierarchies.py:getSubManager", "multilevelSolver/PyNucleus_multilevelSolver/hierarchies.py:getPrintRank", "multilevelSolver/PyNucleus_multilevelSolver/levels.py:copy"]}
{"id": "C126", "title": "Vectors between two partitions", "statement": "After prepareDistributeRepartition on the overlaps between the subdomains of two partitions, send, receive and distribute give every rank of the other partition the values of a vector that all senders have in common, for any order in which the messages arrive; a vector that is sent there and back is unchanged; the assertion fails exactly if some degree of freedom is received from nobody.", "quantifier": "All numbers of ranks, overlaps, multiplicities of degrees of freedom, vectors, and orders of messages.", "why_tests_cant": "Degrees of freedom that are received from several ranks, and the order of messages, depend on the two partitions; the debugging check uses one smooth function, and a test can only try some partitions.", "anchors": ["fem/PyNucleus_fem/algebraicOverlaps.pyx:prepareDistributeRepartition", "fem/PyNucleus_fem/algebraicOverlaps.pyx:prepareDistributeRepartitionSend", "fem/PyNucleus_fem/algebraicOverlaps.pyx:send", "fem/PyNucleus_fem/algebraicOverlaps.pyx:receive"]}
{"id": "C127", "title": "Right-hand sides with gradients", "statement": "assembleRHSgrad adds up, for every degree of freedom that is not on the boundary and every cell it belongs to, the volume of the cell times the quadrature of the function times the derivative of the shape function in the direction of the coefficient at the barycenter; if no vertex is on the boundary the entries add up to zero.", "quantifier": "All meshes of intervals or triangles, numberings, functions, coefficients, and quadrature rules.", "why_tests_cant": "The test in tests/drift.py uses two constant coefficients and monomials on some meshes; the sign for cells of negative orientation, and dofs on the boundary, depend on the mesh and its numbering.", "anchors": ["fem/PyNucleus_fem/femCy.pyx:assembleRHSgrad", "fem/PyNucleus_fem/femCy.pyx:coeffProducts1D", "fem/PyNucleus_fem/femCy.pyx:coeffProducts2D"]}
{"id": "C128", "title": "Edge elements on triangles", "statement": "assembleDiscreteGradient has in the row of every edge 1 for the vertex with the larger number, -1 for the other, and zeros otherwise; the discrete curl of a discrete gradient is zero; the tangential components of the edge functions are the same from both cells of an edge; and the local mass and curl-curl matrices have the integrals of the products of the functions and of their curls.", "quantifier": "All nondegenerate triangles, numberings of vertices and edges, sets of cells, and values of the vertices.", "why_tests_cant": "Signs depend on the order of the vertex numbers in every cell, and a wrong power of the area does not show up on triangles of area 1/2.", "anchors": ["fem/PyNucleus_fem/DoFMaps.pyx:shapeFunctionN1e.evalPtr", "fem/PyNucleus_fem/femCy.pyx:assembleDiscreteGradient", "fem/PyNucleus_fem/discrete_gradient_2d_N1e_P1.pxi:eval", "fem/PyNucleus_fem/discrete_curl_2d_P0_N1e.pxi:eval", "fem/PyNucleus_fem/curlcurl_2D_N1e.pxi:eval", "fem/PyNucleus_fem/mass_2D_N1e.pxi:eval"]}
