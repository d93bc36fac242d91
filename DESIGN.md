# Formal model of PyNucleus in Lean 4

Target: sandialabs/PyNucleus, source read as text in /repo. Nothing is built or run.

## Trusted base

* Lean 4 kernel. Axioms: at most `propext`, `Classical.choice`, `Quot.sound` (checked with `#print axioms`).
* No `sorry`, no added axioms, no `native_decide`, no `bv_decide`.
* The reading of the Cython/Python source. Every definition cites file and lines.

## Modelling conventions

* Scalars: floating point is replaced by a field or commutative ring (`REAL_t` -> field). Rounding, NaN and overflow of floats are not modelled. A division by zero is either excluded by a hypothesis stating exactly the code's requirement or made explicit as `Option`.
* `INDEX_t` (int32) and `ENCODE_t` (int64) are `Nat`/`Int`; overflow is not modelled unless the property is about it.
* numpy arrays and typed memoryviews are lists or functions from `Nat`; out-of-range accesses are excluded by explicit well-formedness predicates or made explicit as errors.
* Loops are folds or structural recursion. Mutation becomes returning the new value.
* Memory management (malloc/realloc/free), the GIL, MPI transport and OpenMP runtime are not modelled except where a property says so.
* Where the code violates a property, the negation is proved with a witness and a `_partial` theorem states what does hold.

## Properties: what is modelled and how it is proved

* **C01 Sparsity pattern is the set of added pairs.** `add` as sorted insertion with the two search routines; `freeze` as prefix sums plus concatenation. Induction over the list of calls; refinement to `Finset`-like membership plus strict sortedness. *Status: proved.*
* **C02 Tuple dictionary behaves as a finite map.** Per-row sorted association lists, `enterValue`/`removeValue`/`getValue` branch by branch. Refinement to a function `key -> Option value` by induction over histories. *Status: proved.* General counter width W; hypothesis Fits is the counter range.
* **C03 Delete-on-hit dictionary keeps exactly the odd keys.** Same model with the flags. Invariant: presence = parity of the count. *Status: proved.*
* **C04 Iteration over the dictionary lists every key once in order.** Cursor state machine `startIter`/`next`. Refinement to the flattened list of rows. *Status: proved.*
* **C05 Index set operations are set operations.** Merge loops as recursive functions on two lists, searches on sorted lists. Membership equivalences by induction. *Status: proved.* qsort is trusted to sort by the modelled comparator; unsortedArrayIndexSet is not modelled.
* **C06 Bit array is a set of indices and its iterator is safe.** List of 64 bit words. Set semantics proved; iterator defect shown by a witness, partial theorem for the safe case. *Status: partial.* Set semantics proved. The iterator part is false exactly for arrays whose last bit is set; iterator_safe_iff characterises this.
* **C07 Product iterator visits every multi-index once.** Digit vector with carry. Refinement to counting in base m. *Status: proved.* empty_range_yields shows that m >= 1 is needed.
* **C08 CSR matvec is the matrix-vector product.** CSR arrays, loops as folds. Sum formula and adjointness over a commutative ring. Complex branch: witness against, real branch proved. *Status: partial.* Proved for matvec (real and complex) and for the real transposed product. False for complex matvecTrans, which multiplies by A itself (complex_matvecTrans_wrong).
* **C09 CSR transpose.** Counting-sort transpose as in the code. Entry equality and sortedness. *Status: proved.* The function is typed for real scalars only. The in-place branch (S._shape is not an attribute of the cdef class) is not modelled; the in-place graph transpose is.
* **C10 Sorting column indices preserves the matrix.** Row-wise joint sort. Permutation invariance of entries. *Status: proved.*
* **C11 Symmetric storage round trip.** Lower triangle extraction and symmetric matvec. *Status: partial.* Proved when every diagonal entry is stored exactly once. A missing diagonal entry leaves uninitialised memory in the result (missing_diagonal_uninitialised), so the full statement is false.
* **C12 Entry access laws of CSR matrices.** Search plus update on sorted rows, with explicit error results. *Status: partial.* Everything but the rejection is proved, for all histories. Positions outside the pattern are silently ignored when the row stores fewer than 20 entries (silently_ignored).
* **C13 Dropping entries in place.** Compaction loops as filters with moving pointers. *Status: partial.* Zero elimination and row dropping are proved in full. Column dropping is proved for matrices with sorted rows and a non-empty column list; it is wrong for unsorted rows (drop_columns_unsorted), and dropColsInPlace on a sparse graph reads a data array that was never assigned (drop_columns_graph_invalid).
* **C14 Edge and face keys are lossless.** Integer arithmetic `2^31*e0+e1` with `//` and `%`. *Status: proved.* 64 and 32 bit wrap-around of the machine arithmetic is part of the model.
* **C15 Coordinate format operator accumulates entries.** Key/value map plus counting sort conversion. *Status: partial.* Proved for real scalars. For complex scalars the full statement is false: addToEntry declares the old value as REAL_t, so adding to a stored entry raises after the entry was popped and the entry is lost (complex_add_loses_entry).
* **C16 Galerkin triple product.** Triple loop; entries as finite sums. *Status: partial.* All kernels proved for sorted rows. restrictMatrix is correct for rectangular R only: for square R both branches run and R^T A R is added as well (restrictMatrix_square, restrictMatrix_square_false).
* **C17 Direct triangular/LU/Cholesky solves are exact.** Substitution loops over a field; LU with permutations as bijections. *Status: proved.* Over any field. The factorisations themselves (SuperLU, scipy cholesky) are outside the model.
* **C18 Cuthill-McKee ordering is a permutation.** BFS state machine; invariant "visited = prefix of the order array". *Status: proved.* np.argsort is a parameter described by ArgSort (a permutation that sorts the keys, ties in any order). Symmetry of the graph is not needed.
* **C19 Operator algebra is a homomorphism.** Expression-tree syntax and evaluator mirroring the buffers; semantics in `Matrix`. *Status: partial.* Proved for every program of +, -, scalar *, unary - and @ over csr, dense, diagonal, identity and null operators, objects shared arbitrarily, with residuals. With .T the operand needs a working matvecTrans (Usable/TransOK): the code has none for diagonal, identity, null and transposed operators, and buffers of rectangular scaled sums are too short. Those failures are proved as witnesses.
* **C20 Result of an operator application does not depend on the old output.** Evaluator keeps the old output as an argument; independence stated over all old outputs. Witnesses where the code violates it. *Status: partial.* Holds for every operator of the algebra in plain application and for transposed application under TransOK. Violated by TimeStepperLinearOperator.matvecTrans with facS = 0 (adds to the old y), gemvT with beta != 0 on tall matrices (writes out of bounds), gemvF with beta = 0 (keeps the old y).
* **C21 Block triangular inverses.** Recursive substitution on lists of blocks. *Status: proved.* Sub-blocks are arbitrary operators described by the matrix they apply, diagonal inverses by the fact that they solve. Blocks of one column must have equal widths: the constructor only checks the sum of the widths.
* **C22 Interpolation operator reproduces polynomials.** Neville-like coefficient recursion; equality with Lagrange basis polynomials of Mathlib. *Status: proved.* Coefficients after any history of calls are the derivatives of order 0, 1, 2 of the Lagrange basis; polynomial matrices of degree below the number of nodes are reproduced. Exact arithmetic. matvec_no_overwrite is modelled as its loop; the declaration `LinearOperator op = 0` in front of it is not modelled. to_csr and HDF5 of these operators are not modelled.
* **C23 Delayed construction is transparent.** State machine with a constructed flag; refinement to eager evaluation. *Status: partial.* Violated for nnz: getnnz reads self.A without constructing, so it is None before the first use and stale after a change of parameters (nnz_is_stale). All other requests are transparent for every history, including failed assemblies (transparent_partial). Parameters that compare equal are assumed to assemble the same operator; writing to the public attributes params, A, isConstructed is not modelled.
* **C24 CG tracks the true residual and reports convergence honestly.** Iteration state as a structure over a vector space; invariant by induction over iterations. *Status: proved.* Serial inner products, exact arithmetic, any initial contents of the work arrays, division by zero counts as breakdown. On convergence the returned number is the index of the last iteration, one less than the iterations performed. For positive definite A and preconditioner also finite termination after at most n iterations.
* **C25 BiCGStab tracks the true residual.** As C24. Division by zero explicit as `Option`; the zero-residual case is a counterexample. *Status: partial.* Residual and convergence are proved. Violated for a zero initial residual: nothing is checked before the first iteration, which divides zero by zero for every operator and linear preconditioner (zero_residual_breakdown, zero_residual_fails). The same happens whenever the first half step is exact, e.g. for every multiple of the identity (exact_half_step_breakdown).
* **C26 GMRES returns the minimiser also on early termination.** Model of the inner loop with breakdown; counterexample witness, partial theorem for breakdown in the first step. *Status: partial.* Minimisation and honest reporting are proved for every cycle and call that does not end in a breakdown (left, right, no preconditioner, flexible with right preconditioner, BLAS kernels), and exactness for a breakdown in the first iteration. Violated for later breakdowns: the stored rotations are not applied to the last column (breakdown_fails). Also violated without BLAS, where gemvF adds to stale data (no_blas_fails), and for the flexible variant without preconditioner (flexible_without_preconditioner_fails).
* **C27 Smoothers and relaxation preconditioners solve the splitting they claim.** Row sweeps as folds over rows; linear-algebra identities over a field. Direction selection as decision logic. *Status: partial.* Proved for CSR matrices (all directions, all numbers of steps) and for the SOR preconditioner of time steppers with equal patterns. Violated: SOR and Gauss-Seidel on symmetric storage always raise because A_diagonal is never set (sss_sor_fails, sss_gauss_seidel_fails); Gauss-Seidel on a time stepper exchanges the directions for the default configuration (time_stepper_direction_fails). Overlaps (parallel case), block Jacobi, ILU and GMRES smoothers are not modelled; sorSmoother itself cannot be constructed (wrong arguments to the base constructor).
* **C28 Multigrid cycle is consistent.** Recursive cycle over a list of levels with abstract linear operators. *Status: proved.* Any number of levels at least two (with one level `solve` raises, there is no temp array), V, W and full multigrid. Smoothers and coarse solver are arbitrary linear ones; that the separable smoothers are such is proved (separable_smoother, jacobi_preconditioner). The parallel case, Krylov smoothers and iterative (nonlinear) coarse solvers are not covered; norms are real square roots, so no residual is NaN.
* **C29 Time stepping coefficients and cached solvers.** Coefficients over reals; solver caches as state machines. *Status: partial.* Proved for the theta and L1 schemes. Violated for IMEX: the cached implicit solver is kept when the step size changes, stages are not evaluated if a column of the tableau sums to zero, and a time dependent mass operator is evaluated at the wrong times (the three _fails theorems); imex_step_partial covers the other cases. fastL1Scheme is not modelled.
* **C30 Factory registration and lookup.** Registration dictionaries as association lists; `build`/`isRegistered`. *Status: partial.* Violated: isRegistered does not bring aliases to lower case (isRegistered_fails), and a name equal to an alias of another entry cannot be built (alias_shadows_fails). Everything else is proved; parameters nested deeper than one mutable object are not modelled.
* **C31 Overlap accumulation is schedule independent.** Global state of all ranks, message multiset, arbitrary permutation of receives. *Status: proved.* All interleavings of the ranks and of the message system, any number of calls with arbitrary local computations in between; also no deadlock and a fixed number of steps. Two-sided overlaps with vecNo 0; one-sided windows are not modelled.
* **C32 Distribute is a partition of unity.** As C31 with the multiplicity count. *Status: proved.* prepareDistribute and distribute; the distribution after a repartitioning (prepareDistributeRepartition) is not modelled.
* **C33 Unique takes the value of the highest sharing rank.** As C31 with overwriting receives in table order; counterexamples for table order and for the pending send buffer. *Status: partial.* Violated twice: unique overwrites send buffers of a preceding accumulate (unique_after_accumulate_fails), and the result depends on the order of the overlap dictionary, which HDF5read changes (unique_dictionary_order_fails). Proved for dictionaries in increasing order and programs without unique directly after accumulate.
* **C34 Every dof is counted once and gets one global number.** Owner = smallest sharing rank; counting and numbering proved bijective. *Status: partial.* countDoFs is proved in full. getGlobalIndices is proved for dictionaries in increasing order; for the order produced by HDF5read it is violated (getGlobalIndices_dictionary_order_fails). scan is modelled as the sum over lower ranks.
* **C35 Partition inverse table.** Counting sort as in the code. *Status: proved.* All partitions with values below n, empty parts included; the uninitialised index array has arbitrary content.
* **C36 Regular partitioning stays in range.** Arithmetic on factor lists and floor. *Status: proved.* Coordinates in an ordered field; rounding is not modelled. np.quantile is an arbitrary function.
* **C37 Distributed matvec equals the global matvec.** Rows partitioned among ranks; sums split into near and remote part. *Status: partial.* Products, residual and sub-assembled diagonal are proved in full. Violated: the diagonal of the row distributed operator is always zero (own columns are renumbered as ghosts), and the CSR operator with doDistribute uses attributes that do not exist.
* **C38 DoF numbering is bijective and conforming.** Numbering loop with the edge dictionary; invariants over the cell list. P3 boundary orientation: witness. *Status: partial.* Violated for elements with several dofs per edge when a boundary edge is traversed from its larger to its smaller vertex: boundary dofs are counted in the wrong direction (DoFMaps.pyx 263-283), witness p3_boundary_fails. The _partial theorems hold for all meshes and elements without such edges (Forward); P1 and P2 are always covered.
* **C39 Complement and product dof maps.** Integer arithmetic on dof numbers. *Status: partial.* The numbering parts are proved in full. Violated: the copy behind getComplementDoFMap (__getstate__/__setstate__, DoFMaps.pyx 949-977) loses the polynomial order and the dimension.
* **C40 Assembly pattern.** Cell loop over the pattern model of C01. *Status: proved.* For at most 65527 couplings per dof (the 16-bit counters of the pattern, see C01).
* **C41 Lagrange bases are nodal.** Polynomials in barycentric coordinates over a field. *Status: proved.* Scalars are any field of characteristic zero; rounding is not modelled. Polynomials are Mathlib MvPolynomial in the barycentric coordinates, which contain all polynomials in cartesian coordinates.
* **C42 Uniform refinement is conforming and exact.** The table of edges is the insertion ordered list of edges (C04); tilings by linear inequalities in barycentric coordinates; faces by a finite check on ten node names carried over by injectivity. *Status: partial.* Proved for all meshes with at most 253 larger neighbours per vertex (limit of tupleDict, C04). refineCy2Dsort always has two coordinates, so surface meshes lose the third one (refine_sorted_surface_fails); proved for plane meshes. Intervals: no cell twice. Not modelled: refineCy2Dhash, mesh transformers.
* **C43 Boundary extraction.** Toggle sets by induction over cells. *Status: proved.* boundaryVertices/Edges/Faces return, each once, exactly the vertices/edges/faces in an odd number of cells; boundary edges have the orientation of the cell returned with them; boundary vertices from edges and boundary edges from faces are exact. For every listing order of Python sets.
* **C44 Boundary faces are oriented outward.** Sign computation; witness of a translated tetrahedron. *Status: partial.* The property is violated: the code adds the cell center where it has to be subtracted. Proved: the returned faces are the boundary faces, each once, and exactly when they are outward (the origin has to be on the inner side, further than 1/8 of the height of the cell). outward_fails: the reference tetrahedron has three inward faces.
* **C45 Refining does not change the coarse mesh.** The scratch row is part of the state. *Status: partial.* newBoundaryAndTags3D writes into the last row of the boundary edges of the mesh that is refined (edges_unchanged_fails); the new boundary is right and all other rows are unchanged. In 3D boundary edges must have the smaller vertex first, which the routine preserves.
* **C46 Removing unused vertices keeps the geometry.** First-use renumbering as a fold. *Status: proved.* For every content of the new arrays: the cells and all boundary rows of used vertices are renumbered by an injective map onto 0..n-1, coordinates are kept, boundary vertices that are used keep their tags.
* **C47 Barycentric coordinates.** Field identities; witness for the slanted segment. *Status: partial.* Right for segments on the line, triangles in the plane (with vertexInCell, every tolerance) and triangles in space whose plane does not contain the origin. Segments in the plane and in space are divided by their length instead of the difference of the coordinate: right only for segments with the direction of an axis (iff theorems); vertexInCell does not find the midpoint of a horizontal segment. dgetrf/dgetrs is a parameter.
* **C48 Parallel symmetric matvec equals the serial one.** Events load/store of each thread in program order; projection of an execution to one thread and the entries no other thread writes. *Status: partial.* The property is violated: the second loop has unprotected updates; race_fails is an execution with two threads that loses an update. Proved for all divisions of rows: every interleaving is right if no entry is updated by two threads, and every execution with uninterrupted updates is right. Sequentially consistent memory.
* **C49 Growing a row never writes outside its allocation.** Row capacities are kept modulo 2^8 (2^16); an access outside the allocation makes the model return `none`. Witness by kernel evaluation; partial theorem from the C02 refinement. *Status: partial.* The property is false of the code: the 256th key of a row, length_inc = 0 and initial_length = 0 are witnesses. Safety is proved inside the counter range.
* **C50 Incomplete Cholesky reproduces the stored entries.** Negation by witness; proof for patterns without triangles. *Status: partial.* The code subtracts data[hh]*data[jj] before data[hh] is divided by the pivot, so the claim is false for the full 3x3 matrix (ichol_wrong); it holds for every pattern without three mutually coupled indices (ichol_partial).
* **C51 Chebyshev preconditioner applies the Chebyshev error polynomial.** Horner scheme as evaluation of a polynomial at a matrix; np.poly as repeated convolution; induction over the roots. *Status: proved.* The cosines are arbitrary numbers in [-1, 1]. The estimate of the spectral radius and the accumulation over an overlap are not modelled.
* **C52 iterationMatrix returns the error matrix of one cycle.** Apply the specification of the outer loop to each unit vector. *Status: partial.* Violated: a column with |A e_i| <= tolerance is returned as e_i (iteration_matrix_fails); the theorem columns_partial gives the columns in both cases.
* **C53 Inverse of a METIS partition.** METIS as a parameter: any list of numbers below n. *Status: partial.* Violated for partitions with an empty part that is not the last one (metis_inverse_fails); proved for partitions without gaps.
* **C54 Restrictions to interior, boundary and component dofs.** Refinement: loops over cells write each dof, the row of a restriction is the unit vector of that dof. *Status: proved.* Hypothesis SameNodes: both maps number the nodes of the same mesh bijectively; build_sameNodes shows it for the constructor under the hypotheses of C38. Where C38 is violated (reversed boundary edges of P3) these restrictions inherit the defect.
* **C55 Local mass and stiffness matrices are the exact integrals.** Polynomial arithmetic over integer lists checked in the kernel and lifted to MvPolynomial; mean values by the factorial formula. *Status: proved.* The mean value over a simplex is defined by the factorial formula for monomials in barycentric coordinates. Scalars are any field of characteristic zero; rounding is not modelled.
* **C56 Simplex volumes, gradients and inner products.** Gradients are characterised by their products with the edges; everything follows by linear algebra. *Status: partial.* Everything holds except signs: simplexComputations1D/3D return the negative gradients for positive orientation, 2D for negative orientation (only products of gradients are used by the callers, gradient_products), and the drift matrices have the wrong sign for negative orientation. Witnesses are proved.
* **C57 Assembly of matrices.** The loops are folds over lists of additions; sums over the upper triangle are symmetrised. *Status: partial.* The symmetric routines add the off-diagonal local entry only once if two local dofs have the same global number (repeated_fails), as on periodic meshes with few cells; they are correct when the interior dofs of each cell are distinct. The non-symmetric routine is correct without that. Not modelled: cellIndices with local matrices that need setCell (the code does not call it there), surface meshes in matrixFreeOperator (simplex array has the wrong shape).
* **C58 Cluster pairs cover the interacting pairs of dofs exactly once.** Ghost list of pairs left out; the sum over appended pairs of products of dof counts is an invariant of the recursion (bilinear in the division of the dofs); lower bound of box distances for omitted pairs. *Status: proved.* All trees and parameters. The square root is a parameter with its defining property; clusters share refParams; refinement during the traversal is represented by the children after the attempt.
* **C59 Box distances and the position of far-field pairs relative to the horizon.** Exact least and greatest distances per dimension by induction over the dimensions; witnesses in the plane. *Status: partial.* Violated: maxDistBoxes compares lower bounds and is too small when one box contains the other in a dimension. maxDist_iff has the exact condition under which it bounds all distances (centres in the order of the lower bounds). far_inside_fails: a far-field pair with points beyond the horizon; complement_fails: an interacting pair of a complement kernel that is dropped. Proved under the condition (far_inside_partial, complement_partial); the other parts without it.
* **C60 Refinement of a cluster tree.** Filters of the remaining dofs are permutations of the dofs; identifiers of level l and number v in closed form, injective since numbers on a level are bounded; witnesses. *Status: partial.* Violated in three ways. quadrant_fails: with splitEveryDim an empty quadrant is skipped but the next one still writes children[k].id beyond the end of the list (proved absent in one dimension, for mixed clusters, for the default branch, and if no quadrant is empty). ids_mixed_fails: mixed clusters use two children per level and others four, so identifiers of siblings' children collide (distinct if all or no clusters are mixed: ids_distinct_partial). barycenter_fails: the default branch of two dimensions never computes a split box for BARYCENTER, so no cluster is ever split. The rest is proved for all inputs; the median is a parameter.
* **C61 Traversal, numbering and trimming of cluster trees.** Induction over trees; lists of nodes at a depth as reference; the set of pairs is an invariant of the emptying loop. *Status: partial.* Violated: get_tree_nodes_on_level(l) calls get_tree_nodes_up_to_level and yields the nodes of all levels from 1 to l (onLevel_exact, onLevel_fails; right for l at most 1). Everything else is proved for all inputs; the branch of trim that adopts grandchildren is shown to be never taken.
* **C62 Products with a hierarchical matrix.** Invariants of the two passes over the stores; the sum of basis times coefficients over all nodes changes by one term per pair and is the change of the result in the downward pass. *Status: partial.* The four products are proved for all inputs. Violated: the basis matrix (basis_fails) and toarray (toarray_fails) use component 0 only, they are right for one component (for toarray also each entry in one block at most, as proved in C58). Without BLAS gemvT accesses memory past the end if a child has fewer coefficients than its parent (transfer_fails), which the default orders allow. matvecTrans with the basis matrix passes vectors of the wrong length and is not modelled.
* **C63 Chebyshev interpolation in clusters.** The computed factors are values of Lagrange polynomials (Mathlib's Lagrange.basis); sums over multi-indices of products are products of sums. *Status: partial.* nodes_in_box holds for all inputs. The other statements are proved when coordinates that are compared are equal or differ by more than the tolerance (1e-8 or 1e-9). Without this they are violated (tolerance_fails): the tolerances are absolute, so for a box of width 1e-9 all entries of the transfer matrix are one and not even constants are reproduced.
* **C64 Relative position of two simplices.** Squared distance of a convex combination is at most the mean of squared distances (Jensen), for each argument in turn; loops for minimum and maximum by induction. *Status: partial.* REMOTE is proved for intervals side by side in one dimension (remote_line_partial). In two dimensions it is violated, and so is INTERACT for the complement: only distances of vertices are compared, and edges can be nearer (remote_fails, two disjoint triangles). linearTransformInteraction.getRelativePosition returns its answer without assigning relPos, so cut elements are not treated as cut for ellipses and l1 balls (stored_fails). For matrices that depend on the point INTERACT is described for pairs of vertices only.
* **C65 Decomposition of cut elements.** Every column of every matrix is a corner: a vertex inside, or a point of an edge on the sphere; convexity of the ball. Two parts are separated by a linear form. On the line the quadratic polynomial is factored. *Status: partial.* Containment, volumes and disjointness are proved for intervals and triangles. That the parts are the whole intersection is proved on the line if no end of the interval is on the sphere; with an end on the sphere the part can shrink to a point (inner_line_fails). Triangles without vertices in the ball have no parts (inner_triangle_fails, a TODO in the code). Outer loop: exact for intervals side by side with ordered vertices; with decreasing order there are no parts (outer_line_fails); for triangles only distances to vertices of the other triangle count (outer_triangle_fails) and without near vertices it raises (outer_raises). In the maximum norm findIntersections can write four values into an array of two (corners_fails) and reads a second coordinate in one dimension (memory_fails); its decomposition of triangles is covered only by the lemmas that hold for every findIntersections.
* **C66 Restriction and prolongation.** The tables are transcribed by a script and compared with the shape functions at the nodes by evaluation in the kernel (a finite check, as the tables are finite). Basis functions are products over the vertices of the mesh, so they agree on neighbouring cells and vanish where the node does not belong to the cell. Exactness: the coarse function is a polynomial on every fine cell, reproduced by interpolation (C41). *Status: partial.* Entries: proved for all pairs, for the orders 1,3 and 2,3 up to 5e-10. Exactness of the prolongation: proved for all other pairs (boundary dofs inherited from the coarse mesh); for 1,3 and 2,3 it fails since the tables have nine decimals (prolongation_exact_fails).
* **C67 Quadrature rules are exact to their order.** Moments of monomials determine exactness; the tables are evaluated in the kernel with numbers a + b sqrt(15); the Duffy transformation factorises monomials into Beta integrals; polynomials in space are pulled back to barycentric coordinates. Nodes of p_roots and js_roots are parameters with the property of Gauss quadrature, the table of modepy with its exactness. *Status: partial.* Proved for the rules on simplices, circles and for nodes and weights on cubes. `integrate` of the rules on cubes reads the array of nodes with exchanged indices and adds the first vertex for every dimension: quad_fails; it is right for one node on an interval (quad_partial). Rules for pairs of simplices read outside of the arrays for embedded simplices (double_fails). simplexJaskowiecSukumar with its decimal tables is not covered.
* **C68 Right-hand sides are integrals against the basis functions.** The loops add up per cell and dof; a sum over the nodes is the mean value because products of polynomials with shape functions have bounded degree (exactness of the rules from C67). Values of the function are elements of a module, so the complex version is the same loop. Witnesses are evaluated in the kernel. *Status: partial.* Proved for given rules. The default rule of assembleRHS is exact for functions of the space except quadratic elements in three dimensions, where the rule of order 3 is used (default_fails). assembleRHSfromFEfunction without rule uses rules of order 3, 2, 3, too low for quadratic elements (fromFE_fails), and on surfaces the volume of the projection to the first coordinates (surface_fails). The rule of assembleNonlinearity suffices for affine functions of linear elements (nonlinearRule_partial), not for the identity on quadratic elements in three dimensions (nonlinear_fails). Edge elements (needsGradients) and assembleRHSgrad are not covered.
* **C69 Pairs of cells: panel type, common vertices and permutation of dofs.** Bits of the mask count the smaller values seen before, so the digits are numbers of unused smaller values; a first difference dominates the rest of the sum. Invariants of the loops over vertices (common positions, masks). Tables of nodes are finite: all permutations and elements are checked in the kernel, the copied ranges are compared with the dofs off the common part. *Status: partial.* Everything proved except that pairs left out have no points within the horizon: the test uses distances of vertices and is wrong for triangles (ignored_fails), right for intervals side by side (ignored_line_partial). Without common vertices the second half of the permutation of dofs is not set by the code. Pairs of a cell with a surface cell have only the first half. Quadrature orders (getPanelType after the first step) are not covered.
* **C70 Assembly of nonlocal operators.** The loops with running counters become loops over lists of pairs; the calls of addToEntry form a list, and every operator is the fold of that list. The loop over pairs of cells keeps its first cell invariant. Sums over the upper triangle are symmetrised; mirrored local matrices are reindexed by exchanging the halves. *Status: partial.* Everything proved except getEntry. For symmetric cells and constant kernels it is proved to be the sum over the pairs of cells that contain I or J (entry_partial); the remainder, which the code replaces by an integral over the boundary of the union of these cells, is not covered. For unsymmetric cells (entry_unsymmetric_fails: cells are swapped once and not back) and variable kernels (entry_variable_fails: pairs with a cell outside are counted once, or not at all if the outer cell has the smaller number) it is not the entry of the matrix. Local matrices are parameters. Vector-valued operators, two dof maps and getDense's conversion of dense to sparse matrices are not modelled.
* **C71 Assembly of the near field of cluster pairs.** The dictionary of masks represents the list of calls of enterValue (bits are or-ed, keys are distinct). Since blocks are disjoint, a bit is set by at most one cluster pair, so sums over keys become sums over cluster pairs and batches do not matter. A pair of cells with a selected bit is visited if and only if both cells are in the union. The lower triangle is supplied by the reversed cluster pair. *Status: proved.* one_sided shows that for symmetric local matrices the reversed cluster pairs cannot be omitted. Local matrices are parameters. The subtraction of the exterior for regional operators, the part for variable kernels with jumps, and vector-valued kernels are not modelled; the dictionary of masks is a list (see C02 for the table).
* **C72 Boundary kernels belong to their kernels by Gauss theorem.** The divergence of a radial field is computed from the derivative of its strength as function of the squared distance; near a point not at the horizon the restriction to the domain is constant. One ordinary derivative per kernel remains; the incomplete gamma function is differentiated by the fundamental theorem. *Status: partial.* Proved for fractional kernels (d = 1, 2, 3), indicator, peridynamic and Gaussian kernels (d = 1, 2) and exponential kernels (d = 1). False, with witnesses: exponential kernels for d = 2, 3 (the term (d-1) Γ/r is missing, exponential_divergence), polynomial kernels, kernels with a factor phi (contained in the scaling and applied again), tempered kernels (the parameter is not passed on), kernels whose interaction domain is not the Euclidean ball (replaced by it). On squares a fractional kernel uses the distance in the maximum norm (value_fails). Only constant orders, horizons and scalings; tempered boundary kernels evaluate gammaincc outside its domain and have no value in the model; complex kernels and derivatives with respect to the order are not modelled here.
* **C73 Derivative kernels are derivatives with respect to the fractional order.** The gamma function is real analytic away from its poles, hence digamma is differentiable there; the factors of the code are the logarithmic derivative of the scaling and its derivative, and everything follows from the product rule. The chain rule gives the parameters. *Status: partial.* Proved for untempered kernels of getFractionalKernel, their derivative and Hessian kernels, variable orders, and boundary kernels of derivative kernels. False, with witnesses: getDerivativeKernel of a normalised boundary kernel (the product with 1/s is a constantTwoPoint, so the normalisation is lost), of a kernel with another constant scaling than 1/2, and the derivative of normalised tempered kernels of infinite horizon (the factor of the untempered normalisation is used). The entries of the Hessian need an order that is affine in its parameters, as all orders of the code with evalGrad are. polygamma(1, x), computed by a Hurwitz zeta function, is modelled as the derivative of digamma. Not modelled: manifold kernels, variableFractionalLaplacianScalingWithDifferentHorizon.
* **C74 Normalised kernels have unit second moments.** Reflections and permutations of coordinates are isometries, so the moments of a radial function vanish off the diagonal and agree on it; their sum is a radial integral, by polar coordinates. The one dimensional integrals follow from the fundamental theorem of calculus and the integral of the Gamma function. *Status: partial.* Proved for indicator, peridynamic and Gaussian kernels in dimensions 1 and 2 on Euclidean balls (intervals, also as ballInf), fractional kernels in dimensions 1, 2, 3 and the exponential kernel of finite and infinite horizon. False, with witnesses: the indicator kernel on a square (`ballInf` in two dimensions) has the second moment 1/2, and the mass of the two dimensional Gaussian kernel of infinite horizon is variance/2, since the exponent is divided by variance**dim. Not treated: the symbol of the fractional kernels of infinite horizon, ellipses, the polynomial kernel (which is scaled by 1/2), variable horizons, manifolds. The error function is the integral that defines it; pow and exp are exact.
* **C75 Fractional orders keep what they declare.** Case distinction over the classes; transition functions are convex combinations; the finite element order is a sum over local shape functions, by induction over the loop; the layer is found by monotonicity of the boundaries. *Status: partial.* Proved for all classes that can be constructed, apart from these defects, each with a witness: sumFractionalOrder multiplies its summands (and lies outside of its bounds); innerOuterFractionalOrder stores only the first coordinate of the centre and reads the others from uninitialised memory; piecewiseConstantFractionalOrder returns -1 for block indices out of range and is flagged symmetric up to 1e-10; lambdaFractionalOrder and sumFractionalOrder inherit __reduce__ of the base class, whose eval raises; smoothedInnerOuterFractionalOrder fails its own assertion. Bounds of lambda and finite element orders are given by the caller. Point location and shape functions of lookupExtended are parameters. The tuple of __reduce__ is applied directly; the encoding by pickle is not modelled.
* **C76 Arithmetic of functions is pointwise.** Case distinction over the operands; loops of matrices by invariants over both indices. *Status: partial.* Proved apart from these defects, each with a witness: sums and differences with a vector valued function that was multiplied by a function forget that function; periodicityFunctor uses the C remainder (directive cdivision) and is not periodic for negative coordinates; sqrtAffineFunction is rebuilt as affineFunction. With the flag symmetric the components below the diagonal are ignored. Values of special functions are opaque; rounding is not modelled. constantMatrixFunction, lookup functions and the sphere integral are not covered.
* **C77 Manufactured solutions solve their equations.** Second derivatives along the coordinates by the rules of calculus; the corner singularity is the imaginary part of a holomorphic function; derivatives of Γ from the digamma function. *Status: partial.* Proved for all pairs of local equations. Defects with witnesses: the Brusselator right-hand sides divide by radius^(2s) although solFractional already contains that factor, so they fit only for the unit ball; _grad_cos2d_n is not the normal derivative of _cos2D; solFractionalDerivative is NaN on the sphere. For the fractional systems that the fractional Laplacian of solFractional is 1 in the ball is a hypothesis (the operator is a parameter); Jacobi polynomials are a parameter. _rhsFunSin1D and _rhsFunSin3D have no wave numbers and fit the solutions with all wave numbers 1. Rounding is not modelled.
* **C78 Two-point functions keep what they declare.** Induction over the way a function is built; sums of the loops are exchanged; cases of the sides of an interface. *Status: partial.* Proved except for defects with witnesses: interfaceTwoPoint is flagged symmetric but is not in two dimensions, and stores nothing in three; matrixTwoPoint.eval divides by a vanishing distance where evalPtr gives 1, and its __reduce__ does not return a tuple; smoothedLeftRightTwoPoint overwrites the constant values outside of the transition zone. Flags given by the caller (lambdaTwoPoint, lookupTwoPoint) are assumed correct. Real values; the complex versions are not modelled (their fixedX, fixedY and diagonal build the real class). Parametrised functions only as products. cellFinder and the local shape functions are parameters of the lookup. Rounding is not modelled; the tolerance 1e-12 in the symmetry test of matrixTwoPoint is not needed since its values are symmetric for every matrix.
* **C79 Face dictionary behaves as a finite map.** A row holds a strictly sorted list in the used part of its buffer; refinement of the abstract map by induction over the history. *Status: partial.* Proved as long as at most 255 keys have the same first number. Defect with witness: after 256 such keys the 8-bit counter wraps around to 0 and none of them is found (cellFinder2 can reach this in two dimensions). Missing: behaviour beyond the wrap around other than this. Calls with a first number outside of 0 … num_dofs−1 are invalid accesses in the model; 32-bit overflow of INDEX_t is not modelled.
* **C80 Finding the cell of a point.** The dictionary refines an injective numbering of the occupied boxes (C79), the two graphs are counting sorts; the candidates are characterised through the keys of the cell centres. On an interval, monotonicity of the keys along the chain of cells shows that the cell of the point or its neighbour is a candidate. *Status: partial.* Proved: what is returned is right up to the tolerance 1e-15 of the code; −1 only if no candidate and no neighbour of a candidate contains the point; every point is found on a mesh of an interval that is not shorter than 1/2, unless it lies in an empty last slice; set-up in one dimension always, in two dimensions with at most 255 occupied boxes per slice. Defects with witnesses: on an interval of length 1/10 an interior vertex is not found (`L` depends on `h` and not on `h` relative to the extent); the search for the right end of the unit interval with 65 equal cells, for the left end of a short interval, and for any point far enough outside of the bounding box reads outside of the arrays of `faceVals`; a strip of 256 triangles makes the constructor's assertion fail. Missing: completeness in two dimensions; meshes with codimension; `vectorLookupFunction`; `cellFinder` (scipy's cKDTree).
* **C81 The simplex mapper enumerates and finds edges and faces consistently.** Model the tables, the loop state and the lookups; characterise sorted pairs and triples by their sets of vertices. *Status: partial.* Proved: enumeration, numbers, keys, orders and orientation. The full statement is false: pairs that are not edges of the cell (or are not sorted) get the number of the last edge, whereas faces give -1 (edge_absent, edge_absent_fails); all loops share one counter, so a loop over face edges inside a loop over faces skips faces and never ends (nested_fails); the loop over vertices uses the dimension of the space and reads behind cells of lower dimension (nodes_fails).
* **C82 Refining a mesh interface keeps the two sides matched.** Model refine for the three dimensions on top of the model of mesh refinement; show that the nodes of a refined tetrahedron are distinct and check the finite table of children, faces and orders for any injective numbering of ten nodes. *Status: proved.* Scalars are an ordered field, so midpoints are exact. The set intersections of the code are lists without duplicates from which pop takes the only element.
* **C83 The degrees of freedom of a mesh interface correspond on its two sides.** Model the sequence of local dofs; compute their points entity by entity; show that keeping first occurrences commutes with a bijection; use C38 for the numbering. *Status: partial.* Proved: the collected list, its members and the correspondence of the two sides (the signs of the map of the overlap are a hypothesis of two_sides). The full statement is false for overlaps with all cells of a mesh in another order: the map of the overlap is then the one of the whole mesh but is read with the numbers of the overlap (full_overlap_fails). Hypotheses of C38 (built maps) apply.
* **C84 Splitting a mesh and its degrees of freedom.** the renumbering is that of C38 with an indicator; invariants of the dictionary and of the array of indices; matrices by C08 and C09; counting sort by C80 *Status: partial.* Fails: tags of boundary faces in 3D (getSubmesh encodes the array e of the last edge instead of the face f: face_tags_fails); with an explicit indicator the rows of the restriction are the marked degrees of freedom in increasing order, which is not the numbering of the sub map in general (indicator_fails). All other parts are proved. The construction of the new mesh object and its boundary are inputs (C43, C44).
* **C85 Layers of cells at the boundary.** invariant of the dictionary of sides (entered once, removed when met again); induction over the layers; a new vertex is made of one or two old ones and two vertices of a new triangle have one in common, so two new layers are in one old layer; the refinement of the mesh is that of C42 *Status: partial.* Fails: for tetrahedra the pruning keeps too few cells (tetrahedra_fails: the children of one layer do not contain two layers of the refined mesh, because a child has vertices on opposite edges); a refinement more than afterRefinements divides by zero (exhausted_fails). Connectivity after refinement in 3D is not modelled. Everything else is proved. Meshes are conforming, two cells have at most one common side, triangles are oriented, and boundary sides have a boundary vertex.
* **C86 Structured meshes are triangulations.** the barycentric coordinates of a point in any cell are the values of globally defined hat functions at the position of the point in the grid; position in the grid is unique; cutting a brick along the order of its coordinates *Status: partial.* Fails: the uniform variant of squareWithInteractions counts all triangles clockwise (tensor_fails; all else about it is tensor_partial); the assertion on the lines to preserve has no absolute value and accepts lines that are no grid lines (lines_fails); boxWithInteractions uses Nx for all three directions (box_interactions_fails, the rest is box_interactions_partial). Everything else is proved for all grids. Arithmetic is exact.
* **C87 Meshes of intervals cover the domain and the interaction layers, and refinement keeps the grading.** Meshes of intervals: generators and the transformation of graded meshes *Status: partial.* double_fails: with 0 ≤ horizon1 ≤ horizon2, which is all the program asks for, an end of an interval need not be a vertex, or an error is raised, if the layers of the middle point are wider than the intervals; double_partial is the rest. width_fails: exponents below one give cells wider than h; width_partial is for exponents of at least one. Arithmetic is exact, tolerances are parameters.
* **C88 The boundary of a mesh by cells and local numbers has each vertex, edge, and face once and has no boundary itself.** Boundary of a mesh by cells and local numbers *Status: partial.* hole_fails: a ring of triangles, which has a hole, gives no error, and two triangles with one common vertex, which have no hole, give the error. connected_partial: the error is raised exactly if there are more than two boundary edges at a vertex. A facet counts as boundary if an odd number of cells contains it, which is one cell for meshes (odd_one).
* **C89 Transformations of refined meshes keep balls, spheres, and gradings.** Transformations of new vertices *Status: partial.* ball_fails: `ballNd` in one dimension refines an interval with midpoint at the origin, a coordinate becomes NaN. hypercube_fails: `boundMaxInv` is computed from an overwritten value, so for cubes other than the unit cube new vertices are at wrong places, for [1,2] at an old vertex; hypercube_partial is for the unit cube. radial_nan: NaN is written exactly for edges with midpoint at the origin; meshes whose cells are in half spaces (Pointed) never have such edges. Real numbers, rounding is not modelled; the mesh generators that call meshpy or gmsh are not modelled.
* **C90 Sums of segments, polygons, and joined meshes have the sides and cells of their parts.** Segments and joined meshes *Status: partial.* rectangle_fails: two corners of `rectangle` are taken from wrong coordinates, and its transformation is stored in an attribute that nothing reads; rectangle_partial is for corners (x,x) and (y,y). transformations_fails: the closures of moved segments all call the last transformation of the segment, so a translated sum of two circles does not transform new vertices of the first circle; transformations_partial is for at most one transformation. Not modelled: the generation of the points of a circle, the shared default list of holes, the call of meshpy, plots. Real numbers, rounding is not modelled.
* **C91 Scaled, sliced, split, and wrapped matrices have the entries they stand for.** Scaled, sliced, split, and wrapped matrices *Status: partial.* no_overwrite_fails: restrictionOp and prolongationOp inherit matvec_no_overwrite of sparseGraph, which adds the product with J instead of I + J/2; a sparseGraph read from a file becomes a restrictionOp. slice_fails: rows of a slice that are not increasing are read after they were overwritten; slice_rows_partial and slice_columns_partial are for increasing lists. helmholtz_diagonal needs each column stored at most once in a row. Exact scalars, rounding is not modelled.
* **C92 Cells that extend a subdomain arrive at their places and are listed alike on both sides.** Extension of subdomains *Status: partial.* old_edge_fails: updateBoundary3D does not sort the old boundary edges, so an edge stored with its larger vertex first is appended again; new_boundary_3D_partial is for sorted edges. shared_order_fails: shared vertices are sorted by the sum of the coordinates times powers of 100, so two vertices with the same sum can come in different orders on the two sides; shared_order_partial is for distinct sums. The layers themselves are C85. Messages are assumed to arrive as sent. Not modelled: tags of the new boundary, the search for shared vertices in the new cells, getMeshOverlapsWithOtherPartition. Places are exact; np.unique is a contract.
* **C93 Stitched subdomains form the mesh they were cut from.** Stitching of subdomains *Status: partial.* overlapping_fails: a vertex of two subdomains that have no cell in common becomes two vertices if they are stitched one after the other, so the mesh is cut there; whether this happens depends on the order of the subdomains. overlapping_partial asks that shared vertices belong to overlap cells with an earlier subdomain. edge_twice_fails: an edge listed in both directions by two subdomains is not recognised as shared. solution and mapping are for elements with one dof per vertex. Not modelled: MPI gather, stitchSubdomains (older interface), overwriting of the cells of the caller, construction of dof maps.
* **C94 Distributed inner products and norms are those of the global vectors.** Inner products and norms *Status: partial.* ip_fails: for two accumulated vectors ip_distributed ignores its level and searches one by the number of local dofs, so a higher level of the same local size gives wrong weights; ip_partial assumes that no higher level has the same size in this case. Not modelled: asynchronous reductions, messages to clients, rounding.
* **C95 Schur complements and linear combinations of operators.** Schur complements *Status: partial.* no_overwrite_fails: sumMultiplyOperator.matvec_no_overwrite initialises a variable of type LinearOperator with 0, which raises a TypeError. transposed_fails: its temporary vector has one entry per row, so the transposed product of two or more operators with fewer rows than columns writes behind its end; combination_partial asks that it is long enough. The solver of the Schur complement is a contract (exact). Not modelled: toarray, to_csr.
* **C96 A mesh gives the same answers about its boundary however it is asked, copied, stored or renumbered.** Mesh objects *Status: partial.* boundary_cells_fails: get_boundary_cells replaces boundary edges that have been set but keeps their tags. none_in_list_fails: [None] stands for all vertices but for no edges or faces. sorted_fails: getBoundaryVerticesByTag(None, sorted=True) sorts the cached vertices but not their tags. file_fails: the transformer is not stored. renumber_fails: with cached boundary faces reorderVertices renumbers the edges twice and the faces not at all, or raises. interior_fails: cached interior vertices go stale. eq_fails: different meshes can be equal. vtk_fails: exported meshes of lower dimension come back in space. The computation of the boundary from the cells is a parameter (see the properties on mesh boundaries). Not modelled: dtypes, HDF5 itself, the class chosen by HDF5read for surfaces.
* **C97 The sizes of a mesh are the diameters, volumes and shortest edges of its cells.** Sizes of meshes *Status: partial.* hmin_fails: the search for the shortest edge starts with 100, in three dimensions with the square 100, so hmin is 100 or 10 if all edges are longer; hmin_partial is for meshes with an edge of at most that length. Reals instead of floating point numbers. The caching of the values is not modelled.
* **C98 The search of cells in a cluster tree finds the cell of a point and the cells on a circle.** Search in cluster trees *Status: partial.* cell_fails: the loop over the cells of a leaf returns -1 in its first pass, so a point in another cell of the leaf is not found, and a leaf without cells gives cell 0; cell_partial is for points in the first cell of a leaf. inside_fails: a circle in the interior of a triangle gives no cell. cells_on_circle: exactly the cells with a point of the circle on an edge whose line the circle does not only touch. Reals instead of floating point numbers; vertexInCell is a parameter.
* **C99 Estimates of eigenvalues are compressions of the operator.** Eigenvalue estimates *Status: partial.* power_fails: without symmetry the estimate can be twice the spectral radius (it does not converge if two eigenvalues have the same absolute value), the operator 0 gives NaN, and a tolerance of 1 gives 1; power_partial is for symmetric operators that do not map the start vector to 0. hessenberg_fails: if the space of the basis becomes invariant, arnoldi does not return the last column, so the result is empty for an eigenvector; hessenberg_partial is about the columns that are returned. overwritten: lanczos2 changes the given start vector. Reals instead of floating point numbers; operators are matrices; arnoldi without memory for H.
* **C100 Computed properties are never out of date.** Computed properties *Status: partial.* fresh_fails: unchanged arguments are not kept when a method is called because of another one, so that a later change to None is not seen; methods without arguments or with None for all arguments are never called; a computed property that was set by hand is not computed again. fresh_partial: no value None, each builder has an argument, only inputs are set. recompute_fails: for the same reason a method is called again although no argument changed. One object, no remote properties, equality as comparison of values.
* **C101 Reports of timings and results are complete.** Reports *Status: partial.* timers_fails: mergeOrdered raises an error exactly if a timer that only the later rank has comes before a common one (merge_raises). own_fails: two tested entries with the same label. series_fails: a group that only the reference has is not reported. Numbers without rounding and NaN; labels are natural numbers; np.argsort is a parameter.
* **C102 Nested dictionaries of parameters and results: defaults, differences, files.** Nested dictionaries *Status: partial.* files_fails: a dictionary inside with the key type is not read as dictionary again; empty lists and lists of lists that begin with an empty one cannot be written. Lists of numbers come back as arrays. A stored number is handed to pickle.loads first; files_partial assumes that this fails. Operators, meshes, pickled values, shared references and the order in files are not modelled.
* **C103 The connectivity of cells lists exactly the cells with enough common vertices.** Connectivity of cells *Status: proved.* Sets as lists without repetition; dictionaries as functions with the empty list for missing keys.
* **C104 Interpolation in the fractional order covers its range with the promised accuracy.** Intervals of fractional orders *Status: partial.* covers_fails: the number of intervals is limited to 1000 without notice. variable_fails: the largest allowed order is used even if it does not give the factor of contraction. pair_fails: z[-0:] is the whole vector for a second set without parameters. The bound contraction is the expression of the code; its meaning for the operators is not proved. Real numbers without rounding; the regularity r plus the left end is positive.
* **C105 The logger holds the times of the timers.** Timers *Status: partial.* total_fails: a timer that is used twice enters its accumulated time each time, so the first interval is counted twice in the sum. total_partial: each timer of the key is used once. Barriers, memory profiling, and log messages are not modelled; times without rounding.
* **C106 Errors of coarse solutions are those of the interpolated solutions.** Errors of levels *Status: partial.* exact_fails: the first and the last rows are compared without looking at their times, so levels that end at different times get an error although the solutions agree. exact_partial: all levels begin and end at the same times. Norm and prolongations are parameters; no rounding.
* **C107 Solutions on parts of a mesh and the union of two meshes keep values and places.** Parts and unions of meshes *Status: partial.* restricts_fails: a dof of the part that is no dof of the mesh (on its boundary) gets the column 0 in the restriction operator instead of zero. restricts_partial: all dofs of the part are dofs of the mesh. The tree of scipy is the relation of nearness; getSubmesh is not part of this property.
* **C108 Renumbering of degrees of freedom keeps them apart and complete.** Renumbering of dofs *Status: partial.* periodic_empty_fails: a map without dofs has one dof after applyPeriodicity. The argsort of numpy and the nearest dof found by the tree of scipy are parameters; the code passes eps as the number of neighbours of the query, which is not modelled. The reduced mesh itself and combine are not part of this property.
* **C109 The matrices on coarser levels are the restrictions of the matrix on the finest level.** Matrices on levels *Status: partial.* reaction: on the coarser level number k the reaction term is there k times, since A is the same object as S, and it is also in S (reaction_fails; reaction_partial: one coarser level). assembled_fails: a level that was assembled gets the reaction term twice. variable_fails: with a variable reaction and without the dof map of the level below (the default from three levels on) there is an error. symmetric_fails: in symmetric format the loop over the diagonal is inside the loop over the entries, so the diagonal gets the reaction term once per entry. The triple product itself is C16; the assembled matrices are parameters.
* **C110 The levels of multigrid are distributed to growing sets of processes.** Distribution of levels *Status: partial.* total_fails: if there is a level between the coarse grid and the finest one, the hierarchies have one refinement less than asked for, and the finest level (on all processes) is missing; total_partial is the other case. no_refinement_fails: without refinements there is an index error. Labels, connectors and solver parameters of the hierarchies are not modelled.
* **C111 Building a hierarchy gives the levels asked for.** Levels of a hierarchy *Status: partial.* keep_fails: the options last and none keep the mesh of the first level (whose policy is not set by the hierarchy), and none keeps that of the last level as well; build_levels says exactly which meshes remain. single_fails: without refinements the only level is not marked as the last one. Meshes, matrices, overlaps and communicators themselves are not modelled here.
* **C112 New partitions are distributed to subdomains fairly, completely and without conflicts.** Numbers of partitions *Status: partial.* each_fails: a subdomain with few cells gets no partition, so there is none for its cells. The partitioner and the linear program of scipy are parameters; set.pop is taken to give the smallest element (the theorems on reordering do not depend on it).
* **C113 A repartitioning moves each cell with its geometry to exactly one new subdomain.** Exchange of cells *Status: partial.* partitions_fails: if old and new communicator overlap, processes outside of the new one compute a number of partitions that is too small; partitions_partial is for disjoint communicators. Messages are delivered completely; the vertices of a cell are sent as a block.
* **C114 New subdomains tag their boundary correctly and find all shared vertices.** Interfaces of new subdomains *Status: partial.* dropped_fails: vertices shared by at most three subdomains are dropped, but two subdomains that lie between two parts of a third one meet only there. dropped3D_fails: in three dimensions the same happens for connected subdomains. dropped_partial is for two dimensions, if the cells of each subdomain at the vertex lie side by side.
* **C115 Lists of levels, files and the collapsed prolongation keep what the hierarchy has.** Storage of levels *Status: partial.* others_fails: the Neumann matrix (the name is tested with a leading blank) and the surface stiffness matrix (stored under another name) are lost. linked_fails: algebraic levels of a rebuilt hierarchy do not know the previous level. connection_fails: the prolongation to the finest level of a hierarchy is lost if another one follows. mesh_fails: the mesh is written to the file and not read. Values are written and read unchanged; the manager of overlaps is left out.
* **C116 Combined maps of degrees of freedom have the degrees of both, equal maps are recognised, blocks group the same coordinates.** Combination of maps of degrees of freedom *Status: partial.* equal_fails: for maps with the same numbers of degrees of freedom on meshes with different numbers of cells, both not one, the comparison raises an exception instead of giving false; equal_partial is for the same number of cells, at least one. key_fails: coordinates in different blocks can be arbitrarily close; key_close is the other direction. The argument delta of getCoordinateBlocks is overwritten by 1e-5 in the code; the model takes any tolerance. A domain without extent in a direction (division by zero) is left out.
* **C117 Lookup functions interpolate the values on their grid.** Interpolation on grids *Status: partial.* uniform_partial: one direction of a grid with constant distance; nested and nested3 reduce two and three directions to it. uniform_fails: on other grids the two nearest points need not enclose the point. direct_partial, direct3_partial: points of the half open unit square or cube on the grid with N+1 points; direct_fails: the last point reads after the end. symmetric_fails: the index of the cell is computed with the number of points instead of the number of cells, so on the symmetric grid values between 0 and 1 give a value larger than 1.
* **C118 The flexible method of conjugate gradients records its residuals and makes progress.** Flexible conjugate gradients *Status: partial.* memory_fails: rold is not initialised and is read in the first iteration, so the second direction and the result depend on its content; conjugate_partial holds from the second iteration on, or if the memory has the first residual. plain_fails: without preconditioner, for every problem there is a content with which the method stops after one iteration and records zero; plain_partial is for a memory that is zero or has the first residual. Exact arithmetic in a field, one process.
* **C119 Arguments with parameters are recognised and give the values that are written.** Arguments with parameters *Status: partial.* bool_fails: the text False gives the value true. rest_fails: what follows the fields is not looked at, so a fraction is accepted as integer and cut off; an integer is not accepted as floating point number. Names without characters that have a meaning in regular expressions; the match is read from left to right, which is the same because the fields and what follows them have no common characters.
* **C120 Functions on a surface are extended to the volume at the places of their degrees of freedom.** Surfaces and global shape functions *Status: partial.* vertices_fails: if surface and volume have the same number of vertices, vertex numbers are taken for degrees of freedom, which are numbered in another order; a value goes to a place from uninitialised memory. vertices_partial: numbered like the vertices. interpolation_fails: on vertices and edges the values of all cells are added; in three dimensions everything is zero. interpolation_partial: points in exactly one cell. The search tree and barycentric coordinates are parameters; one degree of freedom per vertex.
* **C121 Dictionaries are prepared for YAML files without loss.** Dictionaries for YAML files *Status: partial.* writable_fails: integers of numpy, and numbers of numpy, arrays or functions in lists of lists, in lists or in dictionaries in lists are not converted. original_fails: lists are changed in the given dictionary. writable_partial and original_partial say for which dictionaries this does not happen. Floating point numbers are rational; integer arrays have one dimension.
* **C122 The weights of overlapping subdomains are a partition of unity that decreases away from the original subdomain.** Weights of overlapping subdomains *Status: proved.* partition is for any values, so it holds for elements of higher order too; values is for degrees of freedom of vertices, and the linear interpolation to the others is not modelled. The layers of cells are given; assertions are hypotheses of partition, and entries shows when they hold. No rounding.
* **C123 The jump matrix is the sum of the squares of the jumps.** Jump matrix *Status: proved.* The faces of a cell are keys of any type, the squares of their volumes are given; the pattern is found by the same loop and not modelled on its own. Exact arithmetic.
* **C124 Centers lie in their cells, and meshes of selected cells have these cells.** Centers of cells, and meshes of selected cells *Status: partial.* projected_fails: for tetrahedra the projected center can be outside. selected_fails: a list with as many entries as there are cells is taken for new numbers, so all cells in another order come in the inverse order, and a cell listed twice leaves uninitialised cells. selected_partial: other lengths. Vertices that are not used are not removed in this model; rows of cells are copied as a whole, although the code copies dim + 1 entries also for surfaces.
* **C125 Hierarchies of elements, parts of hierarchies, and levels on a rank.** Induction over refinements and over hierarchies. *Status: partial.* meshLevel.copy loses the type of the algebraic level (p_type, p_type_fails), and the parameters of the caller keep the last element only (p_param), so they cannot be used again (p_again). getSubHierarchy raises with buildInteriorBL (sub_exists_fails), its result is not set up and has the overlaps of all levels (sub_set_up_fails). getLevelList looks for None but ranks that do not take part have an EmptyHierarchy, so it raises on every rank that does not take part in all hierarchies (level_list_iff, level_list_fails); proved for the others. Not modelled: exchange of meshes by the connectors, tables of ranks.
* **C126 Vectors between two partitions.** Received entries are the number of copies times the value; the weights are the inverses of these numbers. *Status: proved.* Over an ordered field, with two-sided messages that all arrive. Hypotheses: both sides of an overlap have equally many shared dofs in range, and senders agree on shared values (accumulated vectors).
* **C127 Right-hand sides with gradients.** Loops as sums; the volume cancels, so the products are those of the drift matrix (C56). *Status: partial.* entries and total_zero for all cells; rhs_partial for cells of positive orientation. orientation_fails: for an interval whose vertices are in decreasing order the sign is wrong, because the volume has lost the orientation. Over an ordered field; values of the function in the quadrature nodes are given.
* **C128 Edge elements on triangles.** Writes without addition as a list; all of them agree with the expected matrix. Local matrices by the relation between edges and gradients. *Status: partial.* Proved except for the curl-curl matrix: curlcurl_partial shows that its entries are the integrals times four times the square of the area, and curlcurl_fails has a triangle where this is wrong. gradient_half: the edge function with the coefficients of the discrete gradient is half of the gradient, because the shape functions have a factor 1/2. mass_integral uses the rule with the midpoints of the edges; that this rule is exact for degree 2 is not part of the theorem. The constant 0.020833333333333332 is taken as 1/48.

