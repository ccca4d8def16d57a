{"id": "C01", "title": "Element ownership is a partition", "statement": "After the mesh is distributed, every global element is listed by exactly one rank, exactly once, and the per-rank element counts add up to the number of elements of the mesh file; the count a rank allocates for is the number of elements it stores.", "quantifier": "every mesh, every number of ranks, every assignment of elements to ranks the partitioner may return", "why_tests_cant": "tests run one 2x2 mesh on a couple of ranks; the partitioner may return any assignment", "anchors": ["src/mesh/mesh.cpp: Mesh::partition (284-289, 369-382)"]}
{"id": "C02", "title": "Local/global ID translation round-trips", "statement": "On each rank, for elements, nodes and interior faces: translating a local ID to a global ID and back yields the same local ID; translating a global ID that the rank stores to a local ID and back yields the same global ID; the lookup returns the sentinel UINT_MAX exactly for global IDs the rank does not store; local numbering preserves the global order.", "quantifier": "every mesh, assignment, rank and ID", "why_tests_cant": "the ID space is unbounded and the lookup has a sentinel value that tests only probe at single points", "anchors": ["src/mesh/mesh.cpp: Mesh::search_for_local_ID, h_get_global_*_ID, h_get_local_*_ID, Mesh::partition"]}
{"id": "C03", "title": "Local node tables are closed and faithful", "statement": "A rank's node list contains exactly the nodes used by the elements it owns, each once; for every owned element and every local node slot, the stored local node ID is in range and maps back to the node ID of the mesh file, and its stored coordinates are the coordinates of that node in the mesh file.", "quantifier": "every mesh, assignment, rank, element, node slot and coordinate direction", "why_tests_cant": "depends on the combination of shared nodes between ranks, which is unbounded", "anchors": ["src/mesh/mesh.cpp: Mesh::partition (291-309, 369-397)"]}
{"id": "C04", "title": "Interior faces are stored on exactly the ranks of their two elements", "statement": "Each interior face of the mesh file appears exactly once in the face list of the rank owning its left element and exactly once in that of the rank owning its right element (once in total when they are the same rank) and in no other rank's list; the number of slots allocated in the counting pass equals the number of slots filled in the storing pass.", "quantifier": "every mesh, assignment and rank", "why_tests_cant": "a count/fill mismatch is an out-of-bounds write that only occurs for particular partitions", "anchors": ["src/mesh/mesh.cpp: Mesh::partition (311-344, 399-432)"]}
{"id": "C05", "title": "Interior face records are faithful", "statement": "The record a rank stores for an interior face gives the two owning ranks, the reference face numbers and orientations of the mesh file, and for each side owned by this rank a local element ID that maps back to the element of the mesh file; the element ID of a side owned by another rank is the sentinel UINT_MAX.", "quantifier": "every mesh, assignment, rank and stored face", "why_tests_cant": "eight columns filled with index arithmetic; a swap is visible only with asymmetric faces", "anchors": ["src/mesh/mesh.cpp: Mesh::partition (399-432)", "src/mesh/mesh.h: get_rankL .. get_orientR"]}
{"id": "C06", "title": "Neighbour relation is symmetric and exact", "statement": "Rank s is a neighbour of rank r exactly when r is different from s and some interior face has one element on r and the other on s; hence neighbourhood is symmetric and no rank is its own neighbour; each neighbour is listed once.", "quantifier": "every mesh, assignment and pair of ranks, whatever order the hash set iterates in", "why_tests_cant": "an asymmetric relation deadlocks only for particular partitions", "anchors": ["src/mesh/mesh.cpp: Mesh::partition (311-366)"]}
{"id": "C07", "title": "Both ranks of a boundary agree on the ghost face list", "statement": "For neighbouring ranks r and s, the ghost face list r keeps for s and the list s keeps for r are identical, element by element and in the same order, and consist of exactly the faces between r and s in increasing global order; the count each rank pre-computes equals the list length; the lists of one rank add up to its number of ghost faces, and no access is out of range.", "quantifier": "every mesh, assignment, pair of ranks and hash-set iteration order", "why_tests_cant": "a disagreement shifts or truncates the messages of just one pair of ranks", "anchors": ["src/mesh/mesh.cpp: Mesh::partition (434-527)"]}
{"id": "C08", "title": "Ghost exchange makes the two copies of a face agree", "statement": "After the face-state exchange, for each ghost face both ranks hold the same left and right states, namely the left state of the left rank and the right state of the right rank; the state a rank owned is unchanged, and faces interior to a rank are untouched.", "quantifier": "every mesh, assignment, neighbour order, and every face state", "why_tests_cant": "needs all ranks' data at once; a swapped side is invisible for symmetric data", "anchors": ["src/memory/memory_network.cpp: communicate_face_solution"]}
{"id": "C09", "title": "The exchange protocol cannot deadlock or mismatch messages", "statement": "With every rank posting its sends to all its neighbours and then receiving from them in its own order, every interleaving of the ranks reaches the final state, every receive gets the message of the rank it names with the length it expects, and the final state does not depend on the interleaving.", "quantifier": "every symmetric neighbour relation, number of ranks, neighbour order and schedule", "why_tests_cant": "tests see a single schedule of a pair of ranks", "anchors": ["src/memory/memory_network.cpp: communicate_face_solution (MPI_Isend / MPI_Recv / MPI_Barrier)"]}
{"id": "C10", "title": "Reverse element-to-face map", "statement": "After reading a mesh, each element lists exactly the interior faces it belongs to, each once, in increasing face order, and its face count is the number of those faces.", "quantifier": "every mesh file whose elements have at most six interior faces", "why_tests_cant": "periodic one-element directions make an element its own neighbour", "anchors": ["src/mesh/mesh.cpp: Mesh::read_mesh (143-160)"]}
{"id": "C11", "title": "Mesh arrays are read at the documented offsets", "statement": "The node IDs of an element are the consecutive entries of the connectivity array between the element's two pointer entries, coordinates are row-major (node, direction), the face record is six consecutive integers per face, and boundary faces are numbered consecutively over the boundary groups.", "quantifier": "every mesh file", "why_tests_cant": "off-by-one or stride errors appear only for particular sizes", "anchors": ["src/mesh/mesh.cpp: Mesh::read_mesh (109-203)"]}
{"id": "C12", "title": "Number of partitions", "statement": "The number of parts the mesh is split in is the one given as npartitions in the [Mesh] table exactly when the key is also present at top level, and the number of MPI ranks otherwise; with as many parts as ranks every rank finds its own part, with one part the only rank holds the whole mesh; with fewer parts than ranks, or with a face touching a part that has no rank, the partitioner reads out of bounds, and elements of parts without a rank are on no rank.", "quantifier": "every input file and number of ranks", "why_tests_cant": "the lookup uses two different tables of the input", "anchors": ["src/mesh/mesh.cpp: Mesh::Mesh (37-43), Mesh::partition (227-289, 544-552)"]}
{"id": "C13", "title": "Face point reorderings are permutations", "statement": "For every face orientation, the reordering of face points with respect to orientation 0 is a permutation of the point indices: each index appears exactly once.", "quantifier": "every orientation (2 for quadrilaterals, 8 for hexahedra) and every number of points", "why_tests_cant": "running index arithmetic with per-orientation strides; tests use one n", "anchors": ["src/numerics/basis/shape.cpp: get_face_pts_order_wrt_orient0_quadrilateral, get_face_pts_order_wrt_orient0_hexahedron"]}
{"id": "C14", "title": "Reorderings match the geometry of the orientations", "statement": "Point i of a face seen with orientation o is the same reference-element point as point order_o(i) of the face seen with orientation 0, for face points forming a symmetric tensor grid.", "quantifier": "every face, orientation, number of points, and every symmetric set of 1D abscissae", "why_tests_cant": "must hold jointly for all 6x8 face/orientation pairs and any quadrature order", "anchors": ["src/numerics/basis/shape.cpp: get_points_on_face_quadrilateral, get_points_on_face_hexahedron, get_face_pts_order_wrt_orient0_*"]}
{"id": "C15", "title": "Face points lie on their face", "statement": "Points mapped to a reference face lie on that face of the reference element: the corresponding reference coordinate is -1 or +1 and the others stay within the element; the map is injective on the face points.", "quantifier": "every face, orientation and face point in the reference face", "why_tests_cant": "continuous domain", "anchors": ["src/numerics/basis/shape.cpp: get_points_on_face_quadrilateral, get_points_on_face_hexahedron"]}
{"id": "C16", "title": "Face node lists are correct", "statement": "The local node list of a face contains valid element node numbers, all distinct, and exactly the element nodes whose reference position is on that face; its length is the advertised number of nodes per face.", "quantifier": "every geometric order and face", "why_tests_cant": "strided formulas whose errors appear only at particular orders", "anchors": ["src/numerics/basis/shape.cpp: get_local_nodes_on_face_quadrilateral, get_local_nodes_on_face_hexahedron"]}
{"id": "C17", "title": "Normals point outwards and flip with the side", "statement": "For an affine element with positive Jacobian, the face normal computed from the face nodes points out of the element, equals the cofactor (Nanson) normal scaled by the reference face measure; computing with sign -1 gives exactly the negated normal, and the sum of the face normals of a closed element is zero.", "quantifier": "every positively oriented affine quadrilateral / hexahedron, every face", "why_tests_cant": "continuous family of geometries", "anchors": ["src/numerics/basis/shape.cpp: get_normals_on_face_quadrilateral, get_normals_on_face_hexahedron"]}
{"id": "C18", "title": "Lagrange basis is nodal and a partition of unity", "statement": "The one-dimensional Lagrange basis function j on distinct nodes is 1 at node j and 0 at the others, and the functions sum to 1 at every point; any polynomial of degree at most p is reproduced by its nodal values.", "quantifier": "every order, every set of distinct nodes, every evaluation point", "why_tests_cant": "all orders and all points", "anchors": ["src/numerics/basis/tools.cpp: get_lagrange_basis_val_1D"]}
{"id": "C19", "title": "Lagrange gradients are the derivatives of the values", "statement": "The gradient routine returns the derivative of the value routine at every point, including at nodes; gradients sum to zero.", "quantifier": "every order, node set and point", "why_tests_cant": "all orders and all points; the formula has a skip-index double product", "anchors": ["src/numerics/basis/tools.cpp: get_lagrange_basis_grad_1D"]}
{"id": "C20", "title": "Equidistant nodes", "statement": "The equidistant node generators return strictly increasing nodes that start at the left end, end at the right end, are evenly spaced, and are symmetric for a symmetric interval; one node yields 0.", "quantifier": "every number of nodes and every interval", "why_tests_cant": "all orders", "anchors": ["src/numerics/basis/tools.cpp: equidistant_nodes_1D_range", "src/numerics/nodes.cpp: get_equidistant_nodes_segment, _quadrilateral, _hexahedron"]}
{"id": "C21", "title": "Legendre basis values and gradients", "statement": "For order p at most 7 the Legendre basis entries 0..p are the Legendre polynomials and their derivatives at the point (three-term recurrence, value 1 at 1, orthogonality), independent of p; no entry is left unset.", "quantifier": "every order and point", "why_tests_cant": "continuous; orders above 7 are accepted by the API", "anchors": ["src/numerics/basis/tools.cpp: get_legendre_basis_val_1D, get_legendre_basis_grad_1D"]}
{"id": "C22", "title": "Tensor-product bases", "statement": "The 2D and 3D basis functions are the products of 1D functions with the first direction fastest; the index map is a bijection onto 0..(p+1)^d-1, matching the node numbering, so the tensor Lagrange basis is nodal and sums to 1, and its gradient components are the partial derivatives.", "quantifier": "every order and point", "why_tests_cant": "index arithmetic over all orders", "anchors": ["src/numerics/basis/tools.cpp: get_lagrange_basis_val_2D/3D, get_lagrange_basis_grad_2D/3D, get_legendre_basis_*", "src/numerics/basis/shape.cpp: get_num_basis_coeff_*"]}
{"id": "C23", "title": "Gauss-Legendre rules have their advertised exactness", "statement": "For every tabulated order (below 50) other than 36 and 37, the segment rule integrates every polynomial of degree up to that order over [-1,1] up to the rounding of the tabulated constants (1e-30 relative to the coefficient sum); the rules of orders 36 and 37, whose table misses a point, do not.", "quantifier": "every order accepted and every polynomial of that degree", "why_tests_cant": "infinitely many polynomials; a single mistyped index in a 25-case table survives spot checks", "anchors": ["src/numerics/quadrature/segment.cpp: get_segment_weights_gl", "src/numerics/nodes.cpp: get_gauss_legendre_segment_nodes"]}
{"id": "C24", "title": "Quadrature points are interior, ordered, symmetric; weights positive and symmetric", "statement": "For every tabulated order (below 50) other than 36 and 37, points are strictly increasing in (-1,1) and symmetric about 0, weights are positive and symmetric; for orders 36 and 37 the points are not increasing.", "quantifier": "every supported order", "why_tests_cant": "face reorientation relies on exact symmetry for all orders at once", "anchors": ["src/numerics/quadrature/segment.cpp", "src/numerics/nodes.cpp"]}
{"id": "C25", "title": "Quadrature sizes are consistent", "statement": "The number of points announced for an order is the number of points and weights the tables define, in 1D and for tensor products; orders outside the tables leave the output unset.", "quantifier": "every order and dimension", "why_tests_cant": "sizes come from two unrelated formulas", "anchors": ["src/numerics/quadrature/tools.cpp: get_number_of_quadrature_points", "src/numerics/numerics_data.cpp: get_num_quad"]}
{"id": "C26", "title": "Tensor-product quadrature", "statement": "The quadrilateral and hexahedron rules list points with the first direction fastest, their weights are products of the 1D weights; they are exact (up to rounding of constants) for products of polynomials of the given order exactly when the order is neither 36 nor 37, and then the total weight is the measure of the reference element.", "quantifier": "every 1D rule and order", "why_tests_cant": "all orders and integrands", "anchors": ["src/numerics/quadrature/quadrilateral.cpp", "src/numerics/quadrature/hexahedron.cpp"]}
{"id": "C27", "title": "Small matrix inverse and determinant", "statement": "For 1x1, 2x2 and 3x3 matrices with non-zero determinant, the inverse routine returns the two-sided inverse, and the determinant routine returns the determinant; larger sizes return the inverse if the workspace is zero on entry.", "quantifier": "every matrix", "why_tests_cant": "nine-term formulas with index permutations over all reals", "anchors": ["src/math/linear_algebra.cpp: invA, det, identity"]}
{"id": "C28", "title": "Matrix products compute what their names say", "statement": "The product routines compute cA*B, cA*B^T, cA^T*B and cA^T*B + C; the vector update routines compute c*A + B.", "quantifier": "every size and entries", "why_tests_cant": "transposition mistakes vanish on symmetric data", "anchors": ["src/math/linear_algebra.cpp: cAxB, cAxBT, cATxB, cATxBpC, cApB_to_B, cApB_to_C, dot, cross"]}
{"id": "C29", "title": "Mass matrices are symmetric positive definite and correctly inverted", "statement": "The element mass matrix is symmetric; with positive weights and Jacobians and a basis that is independent on the quadrature points it is positive definite, and the matrix stored by the first computation is its inverse, whatever the scratch memory held; when the store is reused, the result is the inverse exactly if there are at most three basis functions or the store had zero off-diagonal entries.", "quantifier": "every element geometry, order and rule", "why_tests_cant": "all geometries; workspace reuse depends on call history", "anchors": ["src/numerics/basis/tools.cpp: get_inv_mass_matrices", "src/solver/helpers.cpp: compute_inv_mass_matrices", "src/math/linear_algebra.cpp: invA, identity"]}
{"id": "C30", "title": "L2 projection reproduces functions of the solution space", "statement": "Projecting a function that is already a combination of the basis functions returns its coefficients; projecting twice equals projecting once; the projection error is orthogonal to the basis in the quadrature inner product (orders of at least 1, where projection and mass matrix use one rule). At order 0 the projection of a constant is the constant times the ratio of the two rules' element volumes.", "quantifier": "every element, order and coefficients", "why_tests_cant": "all functions and geometries", "anchors": ["src/solver/tools.cpp: L2_projection", "src/solver/base.cpp: init_state_from_fcn"]}
{"id": "C31", "title": "Lax-Friedrichs flux is consistent and conservative", "statement": "With equal states the numerical flux is the physical flux dotted with the normal; swapping the two states and negating the normal negates the flux; the flux is positively homogeneous in the normal.", "quantifier": "every pair of states, normal and gas constant", "why_tests_cant": "continuous domain; asymmetric bugs cancel for symmetric data", "anchors": ["src/physics/base/functions.cpp: compute_flux_laxfriedrichs", "src/physics/euler/functions.cpp: conv_flux_interior, get_maxwavespeed"]}
{"id": "C32", "title": "HLLC flux is consistent, conservative and fully upwind", "statement": "With equal admissible states the HLLC flux is the physical flux dotted with the normal; when all waves move right (left) it is the left (right) physical flux; one of the four branches is always taken (no assertion failure); swapping states and negating the normal negates it exactly when the two wave-speed estimates do not cross.", "quantifier": "every pair of admissible states, normal and gas constant", "why_tests_cant": "four branches selected by real inequalities", "anchors": ["src/physics/euler/functions.cpp: compute_flux_hllc (196-399)"]}
{"id": "C33", "title": "Pressure and wave speed", "statement": "Pressure is (gamma-1) times the internal energy and is positive exactly when internal energy is; the maximum wave speed bounds the speed of every characteristic in any unit direction and is non-negative; the physical flux is consistent with mass, momentum and energy transport.", "quantifier": "every state and direction", "why_tests_cant": "continuous domain", "anchors": ["src/physics/euler/functions.cpp: get_pressure, get_maxwavespeed, conv_flux_interior"]}
{"id": "C34", "title": "Isentropic vortex is a translating isentropic state", "statement": "The 2D vortex depends on position and time only through the co-moving position, is isentropic with positive density wherever it is defined, and solves the Euler equations; the 3D vortex is isentropic and solves the equations when translated with the background velocity, but the routine ignores the time, so what it returns as exact solution solves the equations nowhere.", "quantifier": "every position, time and vortex parameters", "why_tests_cant": "continuous domain", "anchors": ["src/physics/euler/functions.cpp: set_state_isentropic_vortex"]}
{"id": "C35", "title": "Initial/exact-condition and flux dispatch", "statement": "Each configured name selects the routine of that name, and the routine determines the whole state exactly when the condition exists in that dimension; other combinations, and Navier-Stokes fluxes, are not rejected but leave the output as it was.", "quantifier": "every configuration", "why_tests_cant": "combinations of two enumerations; the fall-through is silent", "anchors": ["src/physics/base/base.cpp: call_IC, call_exact_solution, compute_conv_numflux"]}
{"id": "C36", "title": "Residual is independent of previous contents", "statement": "The residual evaluation depends only on the solution coefficients and the mesh, not on what the residual or flux work arrays held before.", "quantifier": "every prior content and history of evaluations", "why_tests_cant": "history dependence shows up only after particular sequences", "anchors": ["src/solver/base.cpp: get_residual, get_element_residuals, get_interior_face_residuals"]}
{"id": "C37", "title": "Face fluxes are scattered to the right element slots", "statement": "The flux computed on an interior face is subtracted from the left element's slot and added to the right element's slot for that face and the reoriented quadrature point; no slot is written by two different faces of a conforming mesh.", "quantifier": "every conforming mesh, orientation and number of points", "why_tests_cant": "write conflicts depend on mesh topology", "anchors": ["src/solver/base.cpp: construct_flux_state, construct_face_states", "src/solver/helpers.cpp: precompute_facequadrature_lookup"]}
{"id": "C38", "title": "Discrete conservation", "statement": "With only interior faces, for a basis whose span contains the constant functions (the function 1 has some coefficients c), the c-weighted sum over all elements and basis functions of the residual of each state variable is zero; hence a step, and a whole parallel run, leaves the integral of each conserved variable unchanged.", "quantifier": "every mesh without boundary faces, every state, numerical flux and geometry", "why_tests_cant": "every state and topology", "anchors": ["src/solver/base.cpp: get_residual", "src/solver/tools.cpp: calculate_volume_flux_integral, calculate_face_flux_integral", "src/solver/flux_functors_impl.h"]}
{"id": "C39", "title": "Free-stream preservation", "statement": "For a uniform state and a consistent numerical flux, the residual of an element equals the physical flux times the defect of that element's discrete metric identity; so it is zero on every element whose metric identities hold, and when they hold on all elements the uniform state is a fixed point of any number of time steps of either method, on any number of ranks and under any schedule.", "quantifier": "every mesh, geometry, uniform state, consistent flux, rank count and interleaving", "why_tests_cant": "continuous domain", "anchors": ["src/solver/base.cpp: get_residual", "src/solver/flux_functors_impl.h"]}
{"id": "C40", "title": "Time steppers are the textbook schemes", "statement": "One FE step returns U + dt*R(U); one RK4 step returns the classical fourth-order Runge-Kutta combination; each advances time by exactly dt and evaluates the residual 1 (4) time(s); stages are evaluated at t, t+dt/2, t+dt/2, t+dt.", "quantifier": "every residual function, state, time and step size", "why_tests_cant": "all right-hand sides", "anchors": ["src/numerics/timestepping/stepper.cpp: FE::take_time_step, RK4::take_time_step"]}
{"id": "C41", "title": "The run ends at the requested time", "statement": "A run from the initial time takes n = floor(tfinal/dt) steps and ends at initial time + n*dt, never past tfinal and less than one step short of it (for a zero start time).", "quantifier": "every final time and step size, every start time", "why_tests_cant": "truncation and a non-zero start time", "anchors": ["src/solver/base.cpp: Solver::solve, Solver::Solver"]}
{"id": "C42", "title": "Parallel datasets round-trip", "statement": "Writing one array per rank in a parallel dataset and reading it back with the same number of ranks returns to each rank exactly its array and dimensions.", "quantifier": "every number of ranks, every (possibly empty) local array and dimensions", "why_tests_cant": "offset arithmetic over all size vectors including empty ranks", "anchors": ["src/io/HDF5Wrapper.h: create_and_write_parallel_dataset, open_and_read_parallel_dataset, read_dims_of_parallel_dataset"]}
{"id": "C43", "title": "Parallel writes tile the file dataset", "statement": "The file regions written by different ranks are disjoint and together cover the dataset exactly.", "quantifier": "every number of ranks and local sizes", "why_tests_cant": "collective offsets for all size vectors", "anchors": ["src/io/HDF5Wrapper.h: create_and_write_parallel_dataset (780-892), get offset (982-996)"]}
{"id": "C44", "title": "Reading with a different number of ranks is refused", "statement": "A parallel dataset written by n ranks is only read by n ranks; any other number stops the program instead of returning data.", "quantifier": "every pair of rank counts", "why_tests_cant": "all combinations", "anchors": ["src/io/HDF5Wrapper.h: read_dims_of_parallel_dataset (909-944)", "src/io/reader.h: Reader::Reader"]}
{"id": "C45", "title": "Solution coefficients survive a write/read cycle in either layout", "statement": "Coefficients written by a run and read back by the post-processor are attached to the same element, basis function and variable, whatever the memory layout of the writer.", "quantifier": "every size and layout", "why_tests_cant": "index arithmetic for both layouts over all sizes", "anchors": ["src/solver/base.cpp: read_in_coefficients", "src/io/writer.cpp"]}
{"id": "C46", "title": "Restarted data keeps its time", "statement": "A solution file records the time of the run and the converter preserves it; but reading the file back into a solver leaves the solver's time unchanged (zero), so an exact solution is compared at the recorded time if and only if the file was written at time zero (a defect for unsteady exact solutions).", "quantifier": "every file", "why_tests_cant": "only visible for unsteady exact solutions", "anchors": ["src/solver/base.cpp: read_in_coefficients", "src/post/main.cpp: get_error"]}
{"id": "C47", "title": "Serialisation is independent of the partition", "statement": "Converting a parallel file to a serial file yields elements in global order with global node numbers, coordinates and coefficients of the right element/node, independently of how many ranks wrote it, how elements were distributed and in which order the writes happened, for row-major (host) data and meshes all of whose nodes are used; column-major data is scrambled.", "quantifier": "every mesh, assignment and number of ranks", "why_tests_cant": "needs all partitions of all meshes", "anchors": ["src/io/reader.h: Reader (serialize)", "src/converter/main.cpp"]}
{"id": "C48", "title": "Scalars and attributes round-trip", "statement": "Gathering one scalar per rank and scattering it back returns to each rank its own value; boolean attributes read back as written.", "quantifier": "every number of ranks and values", "why_tests_cant": "all values", "anchors": ["src/io/HDF5Wrapper.h: create_and_write_dataset_gather_scalar, open_and_read_dataset_scatter_scalar, attribute bool specialisations"]}
{"id": "C49", "title": "Error norms", "statement": "For every order the reported error is the root of the signed sum of powers of the difference over all elements and quadrature points, divided by the total volume, whatever the partition (un-normalised: by the number of ranks). For even orders it is the volume-normalised L^p norm of the difference: never negative, and zero exactly when solution and exact solution agree at all quadrature points. For odd orders differences of opposite sign cancel.", "quantifier": "every partition, solution, order p", "why_tests_cant": "odd orders cancel; the normalisation depends on the number of ranks", "anchors": ["src/post/main.cpp: get_error"]}
{"id": "C50", "title": "Configuration names", "statement": "Every configuration name maps to its enumerator and back; distinct enumerators have distinct names; an unknown name is rejected, for each of the configuration enumerations.", "quantifier": "every string and enumerator", "why_tests_cant": "all strings", "anchors": ["src/common/enums.h: enum_from_string, enum_to_string"]}
{"id": "C51", "title": "Command-line options", "statement": "Option lookup returns the argument following the first occurrence of the flag, and nothing when the flag is absent or last; the existence check is true exactly when the flag is present; the input file is input.toml unless -input is given, and the program dereferences a null option exactly when -input is the last argument.", "quantifier": "every argument vector and flag", "why_tests_cant": "all argument vectors", "anchors": ["src/utils/utils.cpp: get_option, exist_option"]}
{"id": "C52", "title": "Output file names are unique and sorted", "statement": "File names built from an iteration number are distinct for distinct iterations, and sort lexicographically in iteration order as long as iterations have at most eight digits.", "quantifier": "every prefix, suffix and iteration", "why_tests_cant": "all iteration counts", "anchors": ["src/utils/utils.cpp: get_fname_with_iter, get_fname_with_iter_srID"]}
{"id": "C53", "title": "Sorted-range intersection test", "statement": "The common-element test on two sorted ranges returns true exactly when they share an element.", "quantifier": "every pair of sorted ranges", "why_tests_cant": "all lists", "anchors": ["src/utils/utils.h: have_common_element"]}
{"id": "C54", "title": "Input file validation", "statement": "The input check accepts exactly the inputs that contain every required key and a typed entry for every named boundary; of the keys a run cannot do without, the check guarantees all except InitialCondition.name, InitialCondition.data and Physics.name (whose absence is only detected later, by an exception during the run).", "quantifier": "every input table", "why_tests_cant": "all subsets of keys", "anchors": ["src/utils/utils.cpp: check_input_file"]}
{"id": "C55", "title": "Basis and quadrature size tables agree with the code that allocates and fills", "statement": "For every supported basis type the announced number of basis functions is the number of functions the basis routine fills; the post-processing point/cell counts fit the order.", "quantifier": "every order and basis type", "why_tests_cant": "two independent formulas", "anchors": ["src/numerics/numerics_data.cpp: get_num_bases, get_solfile_params", "src/numerics/basis/basis.cpp", "src/numerics/basis/shape.cpp"]}
{"id": "C56", "title": "Element and mesh volumes", "statement": "The volume of an element is the quadrature of the Jacobian determinant; the mesh volume is the sum over all elements and does not depend on the partition; element coordinates passed to it are those of the element's own nodes.", "quantifier": "every mesh and partition", "why_tests_cant": "all geometries and partitions", "anchors": ["src/mesh/tools.cpp: get_element_volume, get_total_volume, elem_coords_from_elem_ID"]}
{"id": "C57", "title": "Both sides of a face see the same physical points and one normal", "statement": "For a conforming face whose right orientation describes how the right element numbers the face relative to the left one, quadrature point i of the left and right traces is the same physical point. The normals the two ranks of a ghost face use are the same list in a different, explicitly known order; hence they agree on straight faces of quadrilaterals and parallelogram faces of hexahedra, and disagree on curved or twisted ones.", "quantifier": "every face, orientation, number of points and geometry of the shared face", "why_tests_cant": "all orientation pairs and curved faces", "anchors": ["src/solver/helpers.cpp: precompute_facequadrature_lookup, precompute_normals", "src/numerics/basis/shape.cpp", "src/numerics/basis/basis.cpp: get_face_basis_ref_grad_for_normals"]}
{"id": "C58", "title": "Element Jacobians are the derivative of the element map", "statement": "At every quadrature point the Jacobian stored for an element is the derivative of its reference-to-physical map, the stored determinant is the determinant of that matrix, and, when it is not zero, the stored inverse is its two-sided inverse, whatever the views held before.", "quantifier": "every geometric order, node positions and reference point, 1 to 3 dimensions", "why_tests_cant": "continuous family of geometries and points", "anchors": ["src/numerics/basis/tools.cpp: get_element_jacobian", "src/math/linear_algebra.cpp: det, invA"]}
{"id": "C59", "title": "Distributed residual equals the serial residual", "statement": "One residual evaluation by all ranks (face states, exchange, volume and face integrals) gives on every rank, for each of its elements, the residual of the DG scheme on the whole unpartitioned mesh, whatever the partition, the interleaving of the ranks and the order of the parallel loops.", "quantifier": "every conforming mesh, partition, number of ranks, interleaving, state, flux function", "why_tests_cant": "all partitions and all schedules", "anchors": ["src/solver/base.cpp: get_residual, construct_face_states, construct_flux_state", "src/memory/memory_network.cpp: communicate_face_solution"]}
{"id": "C60", "title": "A run does not depend on the partition or the schedule", "statement": "After n time steps every rank holds, for each of its elements, the coefficients the serial scheme has after n steps; no rank makes an out-of-bounds access, no execution blocks, and two runs of the same case with different numbers of ranks, partitions and schedules end with the same coefficients.", "quantifier": "every mesh, partition, number of ranks, number of steps, interleaving", "why_tests_cant": "all partitions, schedules and run lengths", "anchors": ["src/solver/base.cpp: Solver::solve, get_residual", "src/numerics/timestepping/stepper.cpp", "src/memory/memory_network.cpp"]}
{"id": "C61", "title": "The whole program on quadrilateral meshes is the textbook scheme", "statement": "On a mesh of bilinear quadrilaterals, the setup (basis and quadrature tables, Jacobians, inverse mass matrices, face normals, projection of the initial condition) completes on every rank for every Lagrange order up to 11 and Legendre order up to 7, and the run after it gives on every rank, for each of its elements, the coefficients of the discontinuous Galerkin scheme written down from the bilinear element maps, the one-dimensional basis polynomials and the Gauss rules; the result does not depend on the partition, and the integral of every conserved variable over the mesh (by the rule of the mass matrix) is constant.", "quantifier": "every quadrilateral mesh with positive Jacobians and matching sides, every partition, number of ranks, order with tables, flux function, initial condition, interleaving, number of steps and content of uninitialised scratch memory", "why_tests_cant": "all meshes, partitions, schedules and orders; tests compare a few fixed cases with tolerances", "anchors": ["src/solver/base.cpp: precompute_matrix_helpers, init_state_from_fcn, solve", "src/solver/helpers.cpp: compute_volume_helpers, compute_inv_mass_matrices, precompute_normals", "src/numerics/basis/basis.cpp", "src/numerics/quadrature"]}
{"id": "C62", "title": "Uniform flow on quadrilateral meshes", "statement": "With Euler physics and either numerical flux, on a mesh of bilinear quadrilaterals without boundary sides, the program started from the initial condition Uniform with an admissible state keeps it: for order 0 every rank ends every run with exactly the coefficients it started with; for higher orders the initial coefficients are exactly those of the uniform state and the residual vanishes up to the accuracy of the quadrature tables. The initial projection is exact on the polynomial space. Where an element has a boundary side nothing is computed there: its net residual is exactly the flux through that side, so a gas at rest is accelerated by its own pressure.", "quantifier": "every distorted quadrilateral mesh, partition, number of ranks, interleaving, number of steps, admissible state, heat ratio above 1, order with tables, content of uninitialised memory", "why_tests_cant": "all meshes and states; a test sees one mesh and cannot separate round-off from a small metric defect", "anchors": ["src/solver/base.cpp: get_element_residuals, get_interior_face_residuals, init_state_from_fcn", "src/solver/helpers.cpp: precompute_normals, compute_volume_helpers", "src/physics/euler/functions.cpp"]}
{"id": "C63", "title": "The whole program on hexahedral meshes is the textbook scheme", "statement": "On a mesh of trilinear hexahedra, with a partition that cuts the mesh only along parallelogram faces, the setup (basis and quadrature tables, Jacobians, inverse mass matrices, face normals, projection of the initial condition) completes on every rank for every Lagrange order up to 11 and Legendre order up to 7, and the run after it gives on every rank, for each of its elements, the coefficients of the discontinuous Galerkin scheme written down from the trilinear element maps, the one-dimensional basis polynomials and the Gauss rules; the two traces combined at a face point are taken at the same physical point; the result does not depend on the partition, and the integral of every conserved variable over the mesh is constant.", "quantifier": "every hexahedral mesh with positive Jacobians and matching faces (in all 8 relative orientations), every partition cutting parallelogram faces only, number of ranks, order with tables, flux function, initial condition, interleaving, number of steps and content of uninitialised scratch memory", "why_tests_cant": "all meshes, face orientations, partitions, schedules and orders; the repository has no hexahedral run test at all", "anchors": ["src/solver/base.cpp: precompute_matrix_helpers, init_state_from_fcn, solve", "src/solver/helpers.cpp: compute_volume_helpers, compute_inv_mass_matrices, precompute_normals", "src/numerics/basis/basis.cpp: Basis::Basis, get_values_3D", "src/mesh/shape.cpp: get_points_on_face_hexahedron"]}
{"id": "C64", "title": "The whole program computes the Euler equations", "statement": "With Euler physics, either numerical flux (Lax-Friedrichs, HLLC), either time stepper (forward Euler, RK4) and the initial condition Uniform or IsentropicVortex, every rank that has completed n steps on a quadrilateral or (partitioned along parallelograms) hexahedral mesh holds for each of its elements exactly the coefficients of the textbook discontinuous Galerkin scheme for the compressible Euler equations - flux function, Rusanov or HLLC numerical flux and initial state written down from the equations - and the time n dt, as long as the textbook run evaluates its fluxes at states of positive density and pressure.", "quantifier": "every mesh with positive Jacobians, partition, number of ranks, interleaving, order with tables, basis family, heat ratio above 1, uniform state or vortex, time step, number of steps, content of uninitialised memory", "why_tests_cant": "all meshes, states and schedules; the repository's tests check the flux kernels on a handful of states and never the assembled solver against the equations", "anchors": ["src/solver/base.cpp", "src/physics/euler/functions.cpp", "src/physics/euler/euler.cpp", "src/numerics/timestepping/stepper.cpp"]}
{"id": "C65", "title": "The first-order scheme keeps density and pressure positive", "statement": "With Euler physics, order 0, the Lax-Friedrichs flux, forward Euler and a uniform admissible state or the isentropic vortex as initial condition, on a quadrilateral or hexahedral mesh without boundary sides: as long as the time step satisfies a CFL condition (time step times the sum over the faces of area times signal speed is below twice the element volume), every element on every rank has positive density and pressure after every step.", "quantifier": "every mesh without boundary, partition, number of ranks, interleaving, number of steps, admissible initial state, heat ratio above 1, content of uninitialised memory", "why_tests_cant": "positivity has to hold for all states and meshes, including states near vacuum that no test hits", "anchors": ["src/solver/base.cpp", "src/physics/euler/functions.cpp: conv_numflux", "src/numerics/timestepping/stepper.cpp: FE"]}
{"id": "C66", "title": "A uniform flow on trilinear hexahedra", "statement": "With Euler physics and a uniform admissible state on a mesh of trilinear hexahedra with positive Jacobians: the residual of the solver equals the physical flux through the sides the mesh file leaves without neighbour, exactly for the element average and, when every face is a parallelogram, for every basis function up to the accuracy of the quadrature tables times the face area; the initial projection reproduces every state of the polynomial space (orders 1 and up); with order 0 and no boundary side the uniform flow is reproduced exactly for all steps, steppers and ranks. Where a face is planar but not a parallelogram the uniform flow is not preserved for orders 1 and up: two extruded trapezoids give a residual of more than 3/10 of the pressure for a gas at rest.", "quantifier": "every hexahedral mesh, partition, number of ranks, interleaving, order with tables, basis family, admissible state, heat ratio above 1, both numerical fluxes, step size, number of steps, content of uninitialised memory", "why_tests_cant": "the claim ranges over all meshes and states; no test of the repository runs the solver in three dimensions", "anchors": ["src/solver/base.cpp", "src/solver/helpers.cpp: precompute_normals", "src/mesh/face.h, src/math: normals of hexahedra"]}
{"id": "C67", "title": "From the input file to the solution file", "statement": "Run the solver executable with an input file that asks for a run in two (three) dimensions with an implemented basis and order, Euler equations, a known flux, gas, initial state, stepper, time step and final time, and a mesh file that stores a valid mesh of bilinear quadrilaterals (trilinear hexahedra). Then every rank gets through reading, partitioning and setup without an error; no rank fails in the time loop and every execution can be continued to its end; the solution file data.h5 can be written, and converting it to serial form yields exactly the mesh together with the coefficients of the textbook discontinuous Galerkin scheme for the Euler equations after the last whole step not after the final time. Consequently the converted result is the same for every launch.", "quantifier": "all input files of the described kind (missing optional keys mean the documented defaults), all meshes of the described kind, all numbers of ranks, all answers of the partitioner (for hexahedra: those that cut along flat faces), all enumeration orders of hash tables, all contents of uninitialised memory, all interleavings of the ranks, all orders of the parallel loops and of the writes to the file", "why_tests_cant": "A test runs one input file on one mesh with one partition and one schedule, and compares with a stored file; the claim is about every input, every launch and every schedule, and about equality with the mathematical scheme.", "anchors": ["src/exec/main.cpp: main, run_solver", "src/mesh/mesh.cpp: Mesh::Mesh", "src/solver/base.cpp: Solver::Solver, precompute_matrix_helpers, init_state_from_fcn, solve", "src/io/writer.cpp: write", "src/numerics/numerics_data.cpp: NumericsParams", "src/io/reader.h: Reader (serialize)", "src/converter/main.cpp"]}
{"id": "C68", "title": "The post-processor prints the distance from the exact solution", "statement": "Run the solver executable and then, with the same input files on the same number of ranks, the post-processor. If the partitioner gives the same answer both times, every rank of the post-processor gets through, and the number printed for each conserved variable is the discrete L2 distance between the solution computed by the textbook scheme and the initial state (the exact solution of a uniform flow, and of the vortex after whole periods), normalised by the area or volume of the mesh; it does not depend on the launches. The time stored in the file plays no role.", "quantifier": "all input files and meshes of C67, all numbers of ranks, partitions, enumeration orders, contents of uninitialised memory, interleavings and orders of writes of the two runs", "why_tests_cant": "The claim is about all inputs and all launches of two programs, and about equality with a mathematical norm.", "anchors": ["src/post/main.cpp: get_error, run_post", "src/solver/base.cpp: read_in_coefficients, precompute_matrix_helpers", "src/mesh/tools.cpp: get_total_volume", "src/physics/base/base.cpp: call_exact_solution"]}
{"id": "C69", "title": "The kernels of the time loop are free of data races", "statement": "Every kernel a rank launches in the time loop (volume states, volume fluxes, volume integrals, face states, face fluxes, scattering of face fluxes, face integrals, multiplication by the inverse mass matrices, stage updates of both steppers, packing and unpacking of the exchanged face states), run by any number of threads: no two threads touch the same memory location between two barriers with one of them writing, every execution terminates, no execution gets stuck at a barrier, and all executions leave the same memory. The kernel that precomputes face normals does not have this property when a team has more than one thread: there are executions with two threads that store a zero normal for a side of length two, and a normal of the wrong sign.", "quantifier": "every mesh, partition, rank, stage, memory contents (including uninitialised memory), team and thread schedule at the level of single loads and stores; every number of threads per team", "why_tests_cant": "A data race shows only under particular schedules of the threads of a GPU; a test sees one schedule per run.", "anchors": ["src/solver/base.cpp: get_residual, get_element_residuals, get_interior_face_residuals, construct_face_states, construct_flux_state", "src/solver/tools.cpp: calculate_volume_flux_integral, calculate_face_flux_integral, multiply_by_inv_mass_matrices", "src/numerics/timestepping/stepper.cpp", "src/memory/memory_network.cpp: communicate_face_solution", "src/solver/helpers.cpp: precompute_normals", "src/numerics/basis/shape.cpp: get_normals_on_face_quadrilateral, get_normals_on_face_hexahedron"]}
{"id": "C70", "title": "The threaded, distributed run equals the serial scheme", "statement": "Run the time loop on all ranks with every kernel executed by concurrent threads. Every execution (interleaving of messages between ranks, of barriers, and of the single loads and stores of the threads inside every kernel) that reaches the end leaves on every rank exactly the coefficients the serial scheme gives to the elements of that rank; no rank can fail; every execution can be continued to the end; and at least one execution exists.", "quantifier": "every mesh, partition, number of ranks, stepper, step size, number of steps, initial coefficients, contents of uninitialised device memory, all interleavings of ranks and of threads", "why_tests_cant": "The claim is about all schedules of ranks and threads jointly and about all inputs.", "anchors": ["src/solver/base.cpp: solve, get_residual", "src/numerics/timestepping/stepper.cpp: take_time_step", "src/memory/memory_network.cpp: communicate_face_solution, device_synchronize"]}
{"id": "C71", "title": "The ranks' output is printed in order", "statement": "When every rank calls one of the printing functions of the memory network, the output is the opening line, the blocks of rank 0, 1, 2, ... one after the other and never mixed, and the closing line; at every moment before that the output is a beginning of this text; no rank is ever stuck at a barrier and every call returns after a bounded number of steps. For views of one to four dimensions each entry of each rank's view appears exactly once in index order. The lines of the post-processor appear once per rank, all copies for one variable before those for the next.", "quantifier": "every number of ranks, every text or view on every rank, every interleaving of the ranks, every moment of the execution", "why_tests_cant": "Output order depends on the schedule of the ranks; a test sees one schedule.", "anchors": ["src/memory/memory_network.cpp: print, print_view, print_3d_view, print_4d_view, barrier", "src/post/main.cpp: get_error"]}
{"id": "C72", "title": "Number of steps and clock in double precision", "statement": "With the step size and final time held as double precision numbers and every operation rounded to a nearest double, a run takes at least as many steps as fit into the final time and at most one more, and then ends at most one rounding error past it; if step size and final time are exactly representable and the latter is k steps, it takes exactly k steps; if they are decimal literals of the input file with tfinal = k dt, it takes k steps or k-1, never more (0.3 with dt = 0.1 takes two steps: a defect). The clock of either method stays within 2^-20 relative of n dt after n steps.", "quantifier": "every final time and step size, every way ties and other roundings to nearest are resolved, every number of steps below 2^31", "why_tests_cant": "The outcome depends on the rounding of each particular pair of numbers; tests only cover the pairs tried.", "anchors": ["src/solver/base.cpp: Solver::solve", "src/numerics/timestepping/stepper.cpp: FE::take_time_step, RK4::take_time_step", "src/common/defines.h: rtype"]}
{"id": "C73", "title": "Results do not depend on axes, units or numbering", "statement": "Two complete runs of the solver whose input files describe the same flow - in rotated or shifted axes, with other units of length, velocity and density, and on the same mesh with its elements, nodes and faces listed in another order - write solution files that hold the same solution: each coefficient of an element of one file is that of the corresponding element of the other in its frame (densities and energies scaled, momentum rotated and scaled), and the end times correspond. If the first run is accepted and physically admissible, so is the second.", "quantifier": "every rotation, shift, positive unit factors and renumbering; every mesh, order, flux, stepper, initial state and number of steps; every pair of rank counts, partitions and schedules", "why_tests_cant": "It relates every run to infinitely many transformed ones; a sign or index error in a normal, a Jacobian entry or a wave speed may cancel on the aligned meshes of tests.", "anchors": ["src/solver/base.cpp: Solver::precompute_matrix_helpers, get_element_residuals, get_interior_face_residuals", "src/physics/euler/functions.cpp: compute_flux_hllc (196-399)", "src/numerics/basis/shape.cpp: get_normals", "src/exec/main.cpp: run_solver"]}
{"id": "C74", "title": "Which element of a face is listed first does not matter", "statement": "Two complete runs of the solver whose mesh files differ only in which of the two elements of some faces is listed first (and so in the direction of their normals, in what each rank regards as left and right, and in who is responsible for them) write the same solution file (in exact arithmetic); if the first run is accepted and physically admissible, so is the second. On hexahedra the exchanged faces must be parallelograms (normals on other faces are evaluated at the wrong points, C17); with the HLLC flux its estimated left wave must not move right where its estimated right wave moves left (C32 shows the flux is not symmetric there).", "quantifier": "every mesh and every set of exchanged faces; every order, flux, stepper, initial state and number of steps; every pair of rank counts, partitions and schedules", "why_tests_cant": "There are two to the number of faces such files for each mesh, and each changes the work of every rank; tests compare one or two.", "anchors": ["src/solver/base.cpp: get_interior_face_residuals (470-561), construct_face_states", "src/solver/helpers.cpp: precompute_normals (371-500)", "src/physics/euler/functions.cpp: compute_flux_hllc (196-399)", "src/numerics/basis/shape.cpp: get_normals", "src/exec/main.cpp: run_solver"]}
{"id": "C75", "title": "Setup kernels do not depend on the threads", "statement": "The inverse mass matrices, the points, Jacobians and volumes of the elements and the coefficients of the initial condition computed by teams of threads are those of the sequential description of the setup, whatever the number of threads per team, the distribution of the loops over them and the interleaving of their loads and stores; every launch ends; no thread reads a cell that another one is writing, and threads of a team that write the same cell at the same time write the same number. (With at least four basis functions and two threads this does happen: every thread sets the diagonal of the identity.)", "quantifier": "every mesh, rank, basis, order, initial condition, number of threads, distribution of loop iterations and interleaving", "why_tests_cant": "The result of a race depends on timing; a missing barrier shows up in few of the many schedules, and CPU builds run teams of one thread.", "anchors": ["src/solver/helpers.cpp: compute_volume_helpers, compute_inv_mass_matrices", "src/solver/base.cpp: Solver::init_state_from_fcn", "src/solver/tools.cpp: L2_projection", "src/numerics/basis/tools.cpp: get_element_jacobian, get_inv_mass_matrices", "src/math/linear_algebra.cpp: invA (team), identity", "src/mesh/tools.cpp: get_element_volume"]}
{"id": "C76", "title": "Kernels stay inside the memory allocated for them", "statement": "In the time loop no thread of any kernel (state evaluation, fluxes, volume and face integrals, face states, packing and unpacking of exchanges, stepper updates) loads or stores a cell outside the extents its view was allocated with, for all memory contents and interleavings; the ghost-face tables indexed by exchanges are long enough and the buffers as long as the face counts. The same holds for the kernels of the setup and of the normals; the scratch memory requested per team for the setup kernels, the normals and the error kernel of the post-processor holds all scratch views the kernels and the functions they call make, aligned and without overlap.", "quantifier": "every mesh, partition, rank, basis, order, stepper, stage, memory contents, number of threads, distribution and interleaving; every start address and alignment of scratch memory", "why_tests_cant": "Out-of-bounds accesses are silent in release builds and depend on the shape of each rank's part and on the order; tests run few partitions, and scratch on CPU is over-allocated.", "anchors": ["src/solver/base.cpp: Solver::Solver, precompute_matrix_helpers (76-85), init_state_from_fcn (164-191), get_element_residuals (427-432), get_interior_face_residuals (512-519), allocate_face_residual_views (563-598)", "src/solver/helpers.cpp: compute_inv_mass_matrices, compute_volume_helpers, precompute_normals (395-430)", "src/memory/memory_network.cpp: communicate_face_solution", "src/post/main.cpp: get_error (111-137)"]}
{"id": "C77", "title": "Send buffers outlive the sends", "statement": "The exchange of face states starts non-blocking sends and never waits for them; the send buffers are released right after the exchange. For every interleaving, and whenever MPI copies the messages out of the buffers (at once or as late as at the receive), no buffer is read after its release, no rank fails or waits forever, all messages of a rank have been received when it releases its buffers, and the solution file of the run is the same as with sends that copy at once. In builds in which host and device memory differ this is false: the host copy of the buffer is released inside the send loop, so as soon as a rank has a neighbour MPI can read released memory.", "quantifier": "every mesh, partition, number of ranks and exchanges, and every interleaving of ranks and of MPI's copies", "why_tests_cant": "Small messages are copied at once by MPI libraries; whether large ones are read from released memory depends on timing and on the allocator.", "anchors": ["src/memory/memory_network.cpp: communicate_face_solution (102-139)", "src/solver/base.cpp: get_interior_face_residuals (510-529)"]}
{"id": "C78", "title": "The numbers of elements, nodes and faces do not matter", "statement": "If two mesh files describe the same mesh with other numbers of the elements and nodes and another order of the faces, then the solver accepts and completes a run on the second if it does on the first, every run on one ends with a solution file that - after conversion - holds the connectivity, coordinates and coefficients of the other under the new numbers, whatever the numbers of ranks, the partitions, the schedules and the physical states, and the post-processor prints the same errors.", "quantifier": "every mesh, permutation of elements, nodes and faces, basis, order, gas, flux, initial condition, stepper, number of steps, number of ranks, partition and schedule", "why_tests_cant": "There are factorially many numberings, and each one changes partitions, owners, the order of loops and of messages; tests use the numbering of the mesh generator.", "anchors": ["src/mesh/mesh.cpp: Mesh::read_mesh, Mesh::partition", "src/solver/base.cpp: Solver::get_residual, get_interior_face_residuals", "src/post/main.cpp: get_error"]}
{"id": "C79", "title": "The error the post-processor prints does not depend on the threads", "statement": "The kernels of the post-processor (volume data, volume sum, evaluation of the state, error of the elements, sums of the errors) can always be run to the end, have no data race, do not leave the memory of their views and have one result, whatever the number of threads per team, the distribution of the loops over the threads, the contents of scratch memory and the interleaving; the numbers printed are the normalised discrete L2 distances of the state in the solution file from the exact solution, as in the sequential description, and after a run of the solver with the same inputs they are the distances of the computed solution from the initial state.", "quantifier": "every input, partition, number of ranks, number of threads per kernel, distribution of loops over threads, scratch contents and interleaving of loads and stores", "why_tests_cant": "A missing barrier or a wrong partial sum shows only under some schedules and team sizes, and a slightly wrong error norm still looks like an error norm.", "anchors": ["src/post/main.cpp: get_error (34-206)", "src/solver/helpers.cpp: evaluate_state (185-198)", "src/mesh/tools.cpp: get_total_volume (41-51)"]}
{"id": "C80", "title": "Results are reproducible bit by bit", "statement": "In floating point arithmetic - no law of arithmetic is used, so any rounding, NaNs and signed zeros are covered - two launches of the same case on any numbers of ranks, with any partitions, interleavings of the ranks, orders of the parallel flux loops and contents of uninitialised memory hold, after the same number of residual evaluations, bitwise the same coefficients for every element and the same time, provided that the two ranks of each cut face computed the same normals; Jacobians, inverse mass matrices and initial coefficients of an element are always the same bits, and so are the normals of a face on ranks that both have (or both lack) its left element; the same holds when every kernel of setup and time loop is executed by any number of threads per team under any interleaving of their single loads and stores (the normals by one thread per face); no rank fails and every run can be completed, whatever the numbers are.", "quantifier": "every type of numbers with the operations of the program, mesh, basis, order, flux function, initial condition, pair of launches (ranks, partitions, threads, schedules of ranks and threads, memory contents) and moment of the runs", "why_tests_cant": "Bitwise reproducibility across rank counts and thread orders is a statement about pairs of schedules; a reordered sum changes the last bit only for some data.", "anchors": ["src/solver/base.cpp: solve (377-399), get_residual (401-413), get_element_residuals (415-468), get_interior_face_residuals (470-561)", "src/solver/helpers.cpp: compute_volume_helpers, compute_inv_mass_matrices, precompute_normals (380-500)", "src/numerics/timestepping/stepper.cpp", "src/solver/base.cpp: init_state_from_fcn (114-223)"]}
{"id": "C81", "title": "Order of accuracy in time: 4 for RK4, 1 for FE", "statement": "If the right-hand side is smooth near the exact solution of the system of ordinary differential equations that the discretisation in space defines, then halving the time step divides the error of the time integration by 16 with RK4 and by 2 with FE: there is one constant C with error at most C dt^4 (RK4) or C dt (FE) at every step of every run with a small enough step size up to the final time, on every number of ranks, with every partition and under every interleaving. For linear fluxes the exact solution exists for every initial state and final time.", "quantifier": "every discretisation, mesh, residual smooth near the exact solution (4 times continuously differentiable for RK4, once for FE; it may depend on time), final time, step size below a threshold, number of steps, number of ranks, partition and schedule", "why_tests_cant": "A convergence study samples a few step sizes of one problem; a wrong stage weight or stage time can keep order 4 for linear or autonomous problems and lose it for others.", "anchors": ["src/numerics/timestepping/stepper.cpp: FE take_time_step (17-55), RK4 take_time_step (57-142)", "src/solver/base.cpp: solve (377-399)"]}
{"id": "C82", "title": "The semidiscrete Euler equations are well posed and small time steps do not crash", "statement": "From coefficients with positive density and pressure at all points the scheme evaluates (and, for the HLLC flux, with its three waves in order at all face points), the system of ordinary differential equations that the discretisation of the Euler equations in space defines has exactly one solution for some time, and it stays physical. Whenever such a solution exists up to a time T, every run of the executable with a small enough time step that ends by T succeeds on every number of ranks and partition and under every interleaving: no state with negative density or pressure is ever passed to the fluxes (also not inside of a Runge-Kutta step), and the coefficients in the solution file differ from the solution at the time of the last step by at most C dt, with one constant C for all step sizes. Uniform physical starts meet the condition for all orders and both fluxes. Without the order of the waves the HLLC routine is not even continuous.", "quantifier": "every conforming mesh of quadrilaterals or hexahedra, basis, order, both numerical fluxes, both steppers, every physical start, final time up to T, step size below a threshold, number of steps, number of ranks, partition, interleaving, order of parallel loops, content of uninitialised memory", "why_tests_cant": "existence and uniqueness of solutions and a bound uniform in the step size quantify over a continuum of runs; whether a run can produce a negative pressure inside of some stage cannot be excluded by finitely many runs", "anchors": ["src/solver/base.cpp: solve (377-399), get_residual (401-413)", "src/numerics/timestepping/stepper.cpp: FE (17-55), RK4 (57-142)", "src/physics/base/functions.cpp: compute_flux_laxfriedrichs (34)", "src/physics/euler/functions.h: conv_flux_interior, compute_flux_hllc (103)", "exec/main.cpp: run_solver (50-118)"]}
{"id": "C83", "title": "Rounding errors of a run are of the order of the unit roundoff over the time step, on any number of ranks", "statement": "Take a case for the Euler equations whose semidiscrete equations have a physical solution up to a time T (as in the well-posedness property). There are constants C, h0, u0, B such that in every computer arithmetic with unit roundoff u <= u0 in which results up to B do not overflow, a run with a time step between C u and h0 never produces an infinite value or NaN up to time T; the coefficients after n steps differ from those of the same n steps in exact arithmetic by at most C u/dt, and from the solution by at most C (dt + u/dt). This holds on every number of ranks and partition and under every interleaving and order of the flux loops, also when the ranks have computed the tables, geometry and initial coefficients with rounding errors of a few u, and two ranks that share a face hold different normals for it. So two launches of a case on different numbers of ranks agree up to C u/dt. IEEE double precision is such an arithmetic with u = 2^-53.", "quantifier": "every conforming mesh, scheme in 2D or 3D, both numerical fluxes, both steppers, every arithmetic with u below a threshold, step size, number of steps, number of ranks, partition, interleaving, order of the flux loops, rounding errors in the data of every rank", "why_tests_cant": "rounding errors depend on the arithmetic, the compiler, the number of ranks and on data; a bound with one constant for all of them quantifies over a continuum; the switches of the HLLC flux and the maximum of the wave speeds are decided by rounded numbers and can go either way", "anchors": ["src/physics/base/functions.cpp: compute_flux_laxfriedrichs (33-89)", "src/physics/euler/functions.cpp: get_pressure (10-23), get_maxwavespeed (25-40), conv_flux_interior (43-91), compute_flux_hllc (196-399)", "src/physics/base/base.cpp: get_conv_flux_numerical (49-62)", "src/solver/base.cpp: solve (377-399), get_residual (401-413), get_element_residuals (415-468), get_interior_face_residuals (470-561)", "src/solver/tools.cpp", "src/numerics/timestepping/stepper.cpp: FE (17-55), RK4 (57-142)"]}
{"id": "C84", "title": "A complete case, from the mesh file to the last step, in rounded arithmetic", "statement": "Take a mesh of quadrilaterals or hexahedra, an order and basis, a flux, a heat ratio and an initial condition that the computer can evaluate. On every computer whose unit roundoff u is small enough and whose range is large enough, whatever the rounding errors of the coordinates in its mesh file, the setup completes on every rank (no pivot of a mass matrix vanishes, nothing is infinite or NaN), and tables, Jacobians, inverse mass matrices, normals and initial coefficients differ from those of the textbook scheme by at most a number of roundoffs that does not depend on the computer, the number of ranks, the partition or old memory contents. If the semidiscrete equations started from the projected initial condition have a physical solution up to T, then the run from this setup, with a time step between C u and h0, stays finite up to T, differs from the exact n-step calculation by at most C u/dt and from the solution by at most C (dt + u/dt); two computers with different arithmetic, mesh files and ranks agree up to C (u+u')/dt. The same holds when the kernels of setup and time loop are executed by any numbers of threads under any interleaving of their single loads and stores (the kernel of the normals with one thread per face), and such a run never fails and can always be continued to its end.", "quantifier": "every mesh of bilinear quadrilaterals or trilinear hexahedra (with partitions along parallelograms), implemented order, basis, flux, both steppers, every arithmetic with u below a threshold, rounding of the mesh file, number of ranks, partition, content of uninitialised memory, step size, number of steps, interleaving, order of the flux loops, number of threads per team, interleaving of the threads", "why_tests_cant": "the setup inverts matrices and divides by determinants in floating point; that no pivot vanishes and that the errors stay of the order of the roundoff on every computer, file rounding and partition quantifies over a continuum of arithmetics and meshes", "anchors": ["src/solver/base.cpp: Solver (20-67), precompute_matrix_helpers (70-111), init_state_from_fcn (114-223)", "src/numerics/basis/tools.cpp: get_element_jacobian (42-83), get_inv_mass_matrices (85-110)", "src/solver/helpers.cpp: compute_volume_helpers (4-51), compute_inv_mass_matrices (53-100), get_quadrature (116-140), get_reference_data (143-183), precompute_normals (380-500)", "src/math/linear_algebra.cpp: invA (92-131)", "src/solver/tools.cpp: L2_projection (66-122), mult_inv_mass (124-138)", "src/mesh/mesh.cpp: partition_manually", "src/numerics/timestepping/stepper.cpp"]}
{"id": "C85", "title": "The solver executable on a computer: from the input file to the solution file, in floating point", "statement": "Take a case for the Euler equations on a mesh of quadrilaterals or hexahedra whose semidiscrete equations, started from the projected initial condition (uniform or isentropic vortex), have a physical solution up to a time T. On every computer whose unit roundoff u is small enough and whose range is large enough, the program, given an input file that asks for this case (its numbers and the coordinates in the mesh file read with rounding errors, missing optional keys standing for the defaults) with a time step dt between C u and h0 and a final time up to T1 < T, reads its input, computes a number of steps that is the last one that does not pass the final time up to C u, finishes its setup on all ranks, never fails or blocks under any interleaving of the ranks, and writes a solution file which converts to the one file of the mesh with finite numbers: a clock within C u/dt of the number of steps times dt, coefficients within C u/dt of the exact calculation of that many steps and within C (dt + u/dt) of the exact solution at the requested final time. Read back, the file gives every rank the coefficients of its elements to the last bit.", "quantifier": "every mesh of bilinear quadrilaterals or trilinear hexahedra (with partitions along parallelograms), implemented order, basis, flux, stepper, initial condition, every arithmetic with u below a threshold, every input file and mesh file that asks for the case up to roundoff, number of ranks, partition, order of hash tables, content of uninitialised memory, interleaving of ranks, order of the flux loops and of the file writes", "why_tests_cant": "the number of steps is a floating point quotient cut to an int and the clock a sum of as many rounded additions; which steps are taken, that nothing overflows and that the file holds the solution of the requested time on every computer, input rounding and interleaving quantifies over a continuum", "anchors": ["src/exec/main.cpp: main (42-47), run_solver (50-118)", "src/solver/base.cpp: Solver (20-67), solve (377-399)", "src/physics/base/base.cpp: set_physical_params (24-32)", "src/io/writer.cpp", "src/numerics/timestepping/stepper.cpp"]}
{"id": "C86", "title": "The post-processor on a computer: the printed errors, alone and after a run", "statement": "Given a solution file with finite coefficients and an input file that asks for a case with a uniform or vortex exact solution, the post-processor, launched on a computer whose unit roundoff u is small enough and whose range is large enough, gets through on every rank and prints for every variable a finite number within C u of the L2 distance of those coefficients from the exact solution (divided by the square root of the volume), whatever order the threads and ranks add in. If the file was written by the solver on as many ranks with the same partition, the printed number is within C u/dt of the error of the exact calculation of as many steps and within C (dt + u/dt) of the error of the solution of the semidiscrete equations at the requested final time; in particular the digits a user reads in a convergence study are those of the scheme, up to roundoff.", "quantifier": "every mesh of bilinear quadrilaterals or trilinear hexahedra (with partitions along parallelograms), implemented order, basis, flux, stepper, every arithmetic with u below a threshold, every input file and mesh file read with rounding errors, number of ranks, partition, hash order, content of uninitialised memory, interleaving of the solver's ranks, order of the parallel reductions of both levels and of MPI_Allreduce", "why_tests_cant": "The reductions are done in an order that changes with the machine, the thread count and the MPI library; a test sees one order on one machine, and the error printed is a small difference of large numbers under a square root, where cancellation could destroy it for inputs that were not tried.", "anchors": ["src/post/main.cpp: get_error, run_post", "src/mesh/tools.cpp: get_element_volume, get_total_volume", "src/solver/base.cpp: read_in_coefficients", "src/physics/base/base.cpp: call_exact_solution"]}
{"id": "C87", "title": "On a computer, the solver executable run with threads does what its input files ask, for every interleaving of ranks and threads", "statement": "A launch of the solver executable whose ranks run every kernel of the setup and of the time loop with any number of threads, in an arithmetic with unit roundoff u below a threshold: the kernels of the setup always finish; no rank fails in the time loop, no state is stuck; when the ranks have left the time loop they can write the solution file; the file holds, for every element of the mesh, finite coefficients within C u/dt of the exact calculation of as many steps and within C (dt + u/dt) of the solution of the semidiscrete equations at the requested final time, with a clock within C u/dt of the time of these steps; read back, it gives every rank the coefficients of its elements to the last bit. The post-processor, run on this file with as many ranks and the same partition, prints for every variable a finite number within C u/dt of the error of the exact calculation and within C (dt + u/dt) of the error of the solution of the semidiscrete equations, in whatever order its threads and ranks add.", "quantifier": "every mesh of bilinear quadrilaterals or trilinear hexahedra (with partitions along parallelograms), implemented order, basis, flux, stepper, every arithmetic with u below a threshold, every input file and mesh file read with rounding errors, number of ranks, partition, hash order, number of threads in each kernel, interleaving of the single loads and stores of the threads (the normals: one thread per face), order of sends and receives among ranks, contents of fresh memory (except the zeroed views), order of the file's pieces", "why_tests_cant": "Threads and ranks interleave in exponentially many ways, each giving different roundoff; a test observes a handful of them on one machine for one input file.", "anchors": ["src/exec/main.cpp: run_solver", "src/solver/base.cpp: precompute_matrix_helpers, init_state_from_fcn, solve", "src/solver/helpers.cpp: compute_volume_helpers, compute_inv_mass_matrices, precompute_normals", "src/memory/memory_network.cpp: communicate_face_solution"]}
{"id": "C88", "title": "HDF5 handles are neither used after closing nor lost, in any history of calls", "statement": "Whatever sequence of calls one process makes on objects of class HDF5File and on the handles they return (opening, re-opening, closing, moving, copying and dropping handles, end of lives in any order), the library is never given a handle that was closed or is of another kind. An open file is held by exactly one object, except for a file whose handle was overwritten by a move assignment, which stays open to the end; groups, datasets, attributes and dataspaces are open exactly while a variable refers to them; when all objects and variables are gone only overwritten files are open. Closing a file ends the program with an error exactly if it was opened in parallel and objects opened through it are still open. Reading modes leave the disk alone, TRUNC and EXCL both empty an existing file, other modes are refused; opening succeeds exactly if the file exists (reading) or is not open already in the same way (writing) and the library does not fail. Reading a mesh, restarting, writing a solution and converting one end on every rank with everything closed and change no file but the output; converting a file onto itself empties it while it is still open for reading.", "quantifier": "every finite sequence of calls, any number of objects and variables, any success or failure of the library's searches; for the programs: every file name, rank role, number of datasets", "why_tests_cant": "Use after close, double close and leaks depend on the order in which objects are moved and destroyed; a test follows one order, and an unclosed handle usually has no visible effect.", "anchors": ["src/io/HDF5Wrapper.h: HDF5File, open, close, create_group, open_dataset, get_dest, managed_hid", "src/io/writer.cpp: Writer::write", "src/io/reader.h: Reader", "src/mesh/mesh.cpp: read_mesh", "src/solver/base.cpp: read_in_coefficients", "src/converter/main.cpp: main"]}
{"id": "C89", "title": "Interrupted writing: no crash point leaves a file from which a restart gets mixed or partial data", "statement": "The ranks write a solution file together and may be stopped at any point of any interleaving; a crash may besides lose any objects of the file. A restart with as many ranks refuses the file on every rank if the head rank had not reached its last two calls; if it gets through on a rank, that rank gets exactly what the complete file would have given it, never a mixture of written and missing blocks - with one exception, which does occur: stopped between the creation of the last object and writing to it, the file is accepted and every coefficient is read from outside of an empty array. The converter on at least two ranks writes a file from such an input only if it is complete (in the exception it divides by zero); on one rank it then writes a file without coefficients. The ranks cannot block each other, writing ends, and as soon as the head rank is done the file is the complete one, whatever the interleaving.", "quantifier": "every number of ranks, sizes of blocks (also empty), contents, interleaving of the ranks' calls, crash point, set of lost objects, rank of the restart", "why_tests_cant": "A test cannot stop a parallel program at every call in every interleaving.", "anchors": ["src/io/writer.cpp: Writer::write", "src/io/HDF5Wrapper.h: create_and_write_parallel_dataset, create_and_write_dataset_gather_scalar, read_dims_of_parallel_dataset", "src/solver/base.cpp: read_in_coefficients"]}
{"id": "C90", "title": "Reading a file that lacks something: which ranks end and which wait for ever", "statement": "Reading ends in any case; no run is infinite. If every call finds what it asks for, all ranks get through, and a restart that gets through on one rank gets through on all. All get through exactly if the file exists, was written by as many ranks and holds everything that is read (listed for the restart and for the converter). A restart from a file that does not exist, or with a wrong number of ranks, ends with an error on every rank. But where only the head rank looks into the file and then broadcasts, a missing object ends the head rank alone, and every other rank waits for its broadcast for ever: a restart file without the numbers of elements, the converter run with a wrong number of ranks, a mesh file in which a dataset is missing; of the parts of a solution file only the offsets and the data of a parallel dataset end all ranks when they are missing. An output file that cannot be created ends the solver on all ranks, but only the head rank of the converter. A restart from a file whose writing was interrupted at any point is, by how far the head rank had come, in exactly one of the cases: all ranks end, the head rank ends and the others wait, all get through.", "quantifier": "every number of ranks, interleaving of the ranks' calls, MPI library that does or does not synchronise in collective calls of the file library, contents of the file, set of datasets of a mesh and missing ones among them, interruption point of the writing", "why_tests_cant": "Whether some interleaving leaves ranks waiting cannot be seen from runs: a launcher usually kills the job, and a test that hangs is repeated.", "anchors": ["src/io/HDF5Wrapper.h: open, read_attribute, read_dataset, open_and_read_attribute_gather_scalar, read_dims_of_parallel_dataset, open_and_read_parallel_dataset", "src/solver/base.cpp: read_in_coefficients", "src/io/reader.h: Reader", "src/mesh/mesh.cpp: read_mesh"]}
{"id": "C91", "title": "Arrays managed by hand: used while they exist, released once, never more than a fixed number", "statement": "The program keeps some of its device arrays in raw arrays of Kokkos views and destructs them by hand: the ghost faces of a mesh, one per neighbour rank, and the two buffers per neighbour of every exchange of face states. On a rank with neighbours, a history of residual evaluations, copies of the mesh and calls of finalize uses no array after its release, and releases none twice, exactly if nothing but copies (and their end) follows a finalize: finalising a mesh and a copy of it, or computing a residual after finalising, is undefined; a rank without neighbours has no restriction. After any such history the memory held is one array per neighbour, and none after finalize, however many residuals were computed. At every moment, in the middle of an exchange as well, at most three arrays per neighbour are held, and in every residual there is a moment at which that many are. The solver and the post-processor never use or release an array that is gone, and hold none of the memory when Kokkos is finalised. What is never given back are the blocks for the view objects themselves: one for the mesh and two for every residual.", "quantifier": "every number of neighbours, history of residuals, mesh copies and finalize calls, moment of it, number of stages and of time steps", "why_tests_cant": "A use after release or a double release usually goes unnoticed in a test, and growth of memory shows only after long runs; a test sees neither all histories nor all moments.", "anchors": ["src/mesh/mesh.cpp: Mesh::finalize, Mesh::Mesh (ghost_faces)", "src/mesh/mesh.h: ghost_faces", "src/solver/base.cpp: get_interior_face_residuals (Uq_local, Uq_ghost)", "src/memory/memory_network.cpp: communicate_face_solution", "src/exec/main.cpp", "src/post/main.cpp"]}
