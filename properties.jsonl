{"id": "C01", "title": "Vector arithmetic is entrywise and size-checked", "statement": "For vectors v, w: v + w and v - w succeed exactly when len(v) == len(w) and then entry i is v[i] ± w[i]; otherwise ValueError is raised. -v, v * s, s * v, v / d (d != 0) act entrywise and preserve the size, v / 0 raises ZeroDivisionError for nonempty v. v.dot(w) is the sum of products over the common prefix, v.normsqr() == v.dot(v), and v.norm() ** 2 == v.normsqr().", "quantifier": "all vectors of all sizes, all scalars", "why_tests_cant": "The claim ranges over infinitely many inputs; the repository's tests sample a single size with random entries.", "anchors": ["src/tvemoves_rufbad/tensors.py: Vector.__add__, __sub__, __neg__, __mul__, __truediv__, dot, normsqr, norm"]}
{"id": "C02", "title": "Indexing is bounds-checked and never wraps around", "statement": "Vector, Matrix and Tensor3D element access returns the stored entry when every index is in [0, size) on its axis and raises IndexError for every other index, including negative ones.", "quantifier": "all containers of all shapes and all integer indices", "why_tests_cant": "Negative and too large indices on each axis are an unbounded family; no test exercises them.", "anchors": ["src/tvemoves_rufbad/tensors.py: Vector.__getitem__, Matrix.__getitem__, Tensor3D.__getitem__"]}
{"id": "C03", "title": "Matrix product is the mathematical product", "statement": "A @ B succeeds exactly when A has as many columns as B has rows (otherwise ValueError); entry (i, j) of the result is sum_k A[i,k] * B[k,j], its shape is (rows A, cols B); the product is associative and (A @ B).transpose() == B.transpose() @ A.transpose().", "quantifier": "all matrices of all nonempty shapes", "why_tests_cant": "The claim ranges over infinitely many inputs; the repository's tests sample a single size with random entries.", "anchors": ["src/tvemoves_rufbad/tensors.py: Matrix.__matmul__, Matrix.transpose"]}
{"id": "C04", "title": "det is the determinant at every size", "statement": "For every square matrix det() returns the mathematical determinant (Leibniz sum with the sign of each permutation), it is multiplicative, and a nonsquare matrix raises ValueError.", "quantifier": "all square matrices of every size n >= 1", "why_tests_cant": "A test fixes one n; correctness of the permutation enumeration and of the inversion-count sign must hold for all n.", "anchors": ["src/tvemoves_rufbad/tensors.py: sign, Matrix.det"]}
{"id": "C05", "title": "inverse_2x2 inverts", "statement": "For every 2x2 matrix A with det(A) != 0, A @ inverse_2x2(A) and inverse_2x2(A) @ A are the identity; a matrix of another shape raises ValueError, a singular one ZeroDivisionError.", "quantifier": "all matrices", "why_tests_cant": "The claim ranges over infinitely many inputs; the repository's tests sample a single size with random entries.", "anchors": ["src/tvemoves_rufbad/tensors.py: inverse_2x2"]}
{"id": "C06", "title": "reshape and flatten are inverse to each other", "statement": "v.reshape(m, n) succeeds exactly when len(v) == m * n (m >= 1), has shape (m, n), and flattening it gives v back; for every matrix A, A.flatten().reshape(*A.shape) == A. Entry (i, j) of the reshape is v[i * n + j].", "quantifier": "all vectors, matrices and shapes", "why_tests_cant": "The claim ranges over infinitely many inputs; the repository's tests sample a single size with random entries.", "anchors": ["src/tvemoves_rufbad/tensors.py: Vector.reshape, Matrix.flatten"]}
{"id": "C07", "title": "Constructed matrices and 3-d tensors are rectangular", "statement": "Matrix(data) succeeds exactly when data is nonempty and all rows have equal length; a ragged list raises ValueError. Tensor3D(data) likewise. Vector.stack and Matrix.stack succeed exactly when both operands have the same shape, and every operation of the three classes returns a well shaped object.", "quantifier": "all nested lists", "why_tests_cant": "The claim ranges over infinitely many inputs; the repository's tests sample a single size with random entries.", "anchors": ["src/tvemoves_rufbad/tensors.py: Matrix.__init__, Tensor3D.__init__, Vector.stack, Matrix.stack"]}
{"id": "C08", "title": "Barycentric coordinates sum to one", "statement": "BarycentricCoordinates(l1, l2) always has components summing to 1. assert_bounds() leaves every component in [lower, upper], changes nothing when all components already are in range, and keeps the sum equal to 1.", "quantifier": "all l1, l2 and all histories of assert_bounds calls", "why_tests_cant": "The documented invariant must survive every input, including out-of-range weights.", "anchors": ["src/tvemoves_rufbad/tensors.py: BarycentricCoordinates"]}
{"id": "C09", "title": "Grid combinatorics", "statement": "RectangleDomain(w, h).grid(scale) has vertices 0..N-1 with N = nh * nv, nh = int(w/scale)+1, nv = int(h/scale)+1; it has nh*(nv-1) + nv*(nh-1) + (nh-1)*(nv-1) edges and 2*(nh-1)*(nv-1) triangles; no edge or triangle occurs twice, not even with reversed or rotated vertices; every index used is a vertex; the edges are exactly the sides of the triangles (nh, nv >= 2).", "quantifier": "all widths, heights >= 0 and scales > 0", "why_tests_cant": "The claim ranges over infinitely many inputs; the repository's tests sample a single size with random entries.", "anchors": ["src/tvemoves_rufbad/domain.py: RectangleDomain.grid"]}
{"id": "C10", "title": "Grid points lie on the lattice inside the rectangle", "statement": "Vertex v = j*nh + i lies at (i*scale, j*scale); all points lie in [0,w]x[0,h]; different vertices have different points; the grid misses less than one scale on the right and the top, and nothing when scale divides the side.", "quantifier": "all widths, heights, scales, vertices", "why_tests_cant": "The claim ranges over infinitely many inputs; the repository's tests sample a single size with random entries.", "anchors": ["src/tvemoves_rufbad/domain.py: RectangleDomain.grid"]}
{"id": "C11", "title": "Triangles tile the grid rectangle with positive orientation", "statement": "Every triangle of the grid is counterclockwise with area scale^2/2, its first side is horizontal and its second vertical; every point of [0,(nh-1)*scale]x[0,(nv-1)*scale] lies in some triangle and no point lies in the interior of two; the areas sum to the area of that rectangle.", "quantifier": "all grids and all points", "why_tests_cant": "The claim ranges over infinitely many inputs; the repository's tests sample a single size with random entries.", "anchors": ["src/tvemoves_rufbad/domain.py: RectangleDomain.grid", "src/tvemoves_rufbad/integrators.py: Integrator"]}
{"id": "C12", "title": "The boundary is the topological boundary", "statement": "The boundary edges of a grid (nh, nv >= 2) are exactly the edges that belong to exactly one triangle, each listed once and oriented as in grid.edges; the boundary vertices are exactly the vertices on the rim, each listed once, and exactly the endpoints of boundary edges.", "quantifier": "all grids", "why_tests_cant": "The claim ranges over infinitely many inputs; the repository's tests sample a single size with random entries.", "anchors": ["src/tvemoves_rufbad/domain.py: RectangleDomain.grid, Boundary"]}
{"id": "C13", "title": "Dirichlet and Neumann edges partition the boundary according to fix", "statement": "Every boundary edge is in exactly one of dirichlet_boundary.edges and neumann_boundary.edges; it is in the former exactly when it lies on a side listed in fix; the order and multiplicity of fix entries and the iteration order of Python sets do not matter; a single option behaves like a singleton list.", "quantifier": "all grids, all fix values, all set iteration orders", "why_tests_cant": "Set iteration order and every combination of sides matter; tests check one side at a time.", "anchors": ["src/tvemoves_rufbad/domain.py: RectangleDomain.grid, FixOption"]}
{"id": "C14", "title": "Dirichlet vertices are the vertices of the Dirichlet edges", "statement": "dirichlet_boundary.vertices lists, without repetition, exactly the vertices lying on a fixed side, i.e. exactly the endpoints of dirichlet_boundary.edges.", "quantifier": "all grids with nh, nv >= 2, all fix values, all set iteration orders", "why_tests_cant": "The claim ranges over infinitely many inputs; the repository's tests sample a single size with random entries.", "anchors": ["src/tvemoves_rufbad/domain.py: RectangleDomain.grid"]}
{"id": "C15", "title": "Neumann vertices are the vertices of the Neumann edges", "statement": "neumann_boundary.vertices lists, without repetition, exactly the endpoints of neumann_boundary.edges, so a boundary vertex strictly inside a fixed side carries no boundary traction.", "quantifier": "all grids with nh, nv >= 2, all fix values, all set iteration orders", "why_tests_cant": "Tests only look at fix=None for Neumann vertices.", "anchors": ["src/tvemoves_rufbad/domain.py: RectangleDomain.grid"]}
{"id": "C16", "title": "Point location is correct", "statement": "grid.to_barycentric_point(p) returns a triangle of the grid and coordinates that sum to one and reconstruct p exactly from the triangle's vertices; the coordinates are >= -tol with tol = 1e-10/scale^2 (scale >= 1e-5; 2e-10/scale^2 in general); every point of the closed grid rectangle is located; None is returned only for points outside all triangles.", "quantifier": "all grids and all points of the plane", "why_tests_cant": "Tests sample four corner points of one grid.", "anchors": ["src/tvemoves_rufbad/domain.py: _sign, _triangle_contains_point, _to_barycentric_coordinates, Grid.to_barycentric_point"]}
{"id": "C17", "title": "point_to_vertex inverts points", "statement": "For a grid from RectangleDomain.grid, grid.point_to_vertex(grid.points[v]) == v for every vertex v, a returned vertex lies within the tolerance (mean edge length / 1e7) of the argument, and None is returned exactly when no grid point is that close. grid._contains_point(p) says whether point_to_vertex finds a vertex.", "quantifier": "all grids, all vertices, all points", "why_tests_cant": "The claim ranges over infinitely many inputs; the repository's tests sample a single size with random entries.", "anchors": ["src/tvemoves_rufbad/domain.py: Grid.point_to_vertex, Grid._points_coincide, Grid._contains_point"]}
{"id": "C18", "title": "Vertex lookups reject foreign simplices", "statement": "triangle_vertices(t) returns the three points of t in order when t is in grid.triangles and raises ValueError otherwise; edge_vertices likewise.", "quantifier": "all grids, all triples and pairs", "why_tests_cant": "The claim ranges over infinitely many inputs; the repository's tests sample a single size with random entries.", "anchors": ["src/tvemoves_rufbad/domain.py: Grid.triangle_vertices, Grid.edge_vertices"]}
{"id": "C19", "title": "append_edge keeps edges unique and the mean exact", "statement": "After any sequence of append_edge calls no undirected edge is present twice, earlier edges keep their position and orientation, every appended edge is present in one orientation, and the stored mean edge length used for the point tolerance is the exact average length of the edges.", "quantifier": "all grids and all histories of append_edge calls", "why_tests_cant": "The incremental mean must stay exact after every history of calls.", "anchors": ["src/tvemoves_rufbad/domain.py: Grid.append_edge, Grid.__init__"]}
{"id": "C20", "title": "Grid equality ignores numbering", "statement": "Two grids that describe the same mesh up to renumbering of vertices, reordering of edges and triangles, reversing edges and rotating triangles compare equal (points further apart than the tolerance), and grids that compare equal are related by such a renumbering; == is reflexive on grids produced by the library, and symmetric and transitive on those with one mesh size, where it means that coordinates agree exactly.", "quantifier": "all pairs of grids", "why_tests_cant": "The claim ranges over infinitely many inputs; the repository's tests sample a single size with random entries.", "anchors": ["src/tvemoves_rufbad/domain.py: Grid.__eq__, _boundaries_coincide, _contains_edge, _contains_triangle"]}
{"id": "C21", "title": "Domain curves", "statement": "curves(n, a, b) (n >= 2, a, b >= 0) returns a+2 horizontal followed by b+2 vertical curves of n points each, all inside the rectangle, equally spaced, running from one side to the opposite one, including the four sides of the rectangle; b defaults to a; n == 1 raises ZeroDivisionError.", "quantifier": "all rectangles and all counts", "why_tests_cant": "The claim ranges over infinitely many inputs; the repository's tests sample a single size with random entries.", "anchors": ["src/tvemoves_rufbad/domain.py: RectangleDomain.curves"]}
{"id": "C22", "title": "Refinement never fails and keeps the coarse vertices", "statement": "refine(grid, n) raises ValueError for n < 1; for n >= 1 and a grid obtained from grid() or from refine() and scale/n >= 1e-15 it does not raise, its first vertices and points are those of the coarse grid, and the result is again a grid of right triangles with leg scale/n, with n^2 times as many triangles and (n*(nh-1)+1)*(n*(nv-1)+1) vertices.", "quantifier": "all grids, all refinement factors, any number of successive refinements", "why_tests_cant": "Vertex identification between neighbouring triangles must work for all sizes and factors.", "anchors": ["src/tvemoves_rufbad/domain.py: RectangleDomain.refine, _refine_equilateral_triangle"]}
{"id": "C23", "title": "Refining equals gridding at the finer scale", "statement": "refine(domain.grid(scale), n) == domain.grid(scale/n) whenever the finer grid has the same extent, for every fix option.", "quantifier": "all rectangles, scales, factors, fix values", "why_tests_cant": "The one test uses one square and one factor.", "anchors": ["src/tvemoves_rufbad/domain.py: RectangleDomain.refine, Grid.__eq__"]}
{"id": "C24", "title": "Fine barycentric points map to the same Euclidean point", "statement": "For a refined grid, to_coarse_barycentric_point maps (triangle, coordinates) with triangle in the grid in any of its three rotations to a coarse triangle and coordinates describing the same Euclidean point, with nonnegative coordinates if the input's are nonnegative; a foreign triangle raises ValueError.", "quantifier": "all refined grids, all fine triangles and rotations, all coordinates", "why_tests_cant": "Tests use the stored rotation of each triangle only.", "anchors": ["src/tvemoves_rufbad/domain.py: RefinedGrid.to_coarse_barycentric_point"]}
{"id": "C25", "title": "Fine edge points map to the same Euclidean point", "statement": "For every edge in refined_grid.edges that lies on a coarse edge, to_coarse_edge_point(edge, t) returns an edge of the coarse grid and a parameter describing the same Euclidean point, in [0,1] when t is; for every other edge it raises ValueError.", "quantifier": "all refined grids, all edges, all t", "why_tests_cant": "Tests check boundary edges of one grid only.", "anchors": ["src/tvemoves_rufbad/domain.py: RefinedGrid.to_coarse_edge_point, _refine_equilateral_triangle"]}
{"id": "C26", "title": "Refined boundaries are the subdivided boundaries", "statement": "In a refined grid the boundary, Dirichlet and Neumann edges are exactly the n-fold subdivisions of the coarse ones, all contained in refined_grid.edges with the same orientation, each listed once; new boundary vertices are exactly the subdivision points of those edges; Dirichlet and Neumann edges still partition the boundary.", "quantifier": "all grids, factors, fix values", "why_tests_cant": "The claim ranges over infinitely many inputs; the repository's tests sample a single size with random entries.", "anchors": ["src/tvemoves_rufbad/domain.py: _refine_boundary_edge, _refine_equilateral_triangle"]}
{"id": "C27", "title": "Refinement preserves area and orientation", "statement": "Every fine triangle is counterclockwise with area (coarse area)/n^2, is contained in its coarse triangle, and the fine areas sum to the coarse total; edges of the refined grid are exactly the sides of its triangles, each once.", "quantifier": "all grids and factors", "why_tests_cant": "The claim ranges over infinitely many inputs; the repository's tests sample a single size with random entries.", "anchors": ["src/tvemoves_rufbad/domain.py: _refine_equilateral_triangle"]}
{"id": "C28", "title": "Quadrature rule validation", "statement": "TriangleQuadratureRule(weights, points) raises ValueError exactly when a point has x < 0, y < 0 or x + y > 1, or when the weights do not sum to 1 up to relative tolerance 1e-9; otherwise its points are barycentric coordinates in [0,1] summing to one.", "quantifier": "all weights and points", "why_tests_cant": "The claim ranges over infinitely many inputs; the repository's tests sample a single size with random entries.", "anchors": ["src/tvemoves_rufbad/quadrature_rules.py: TriangleQuadratureRule"]}
{"id": "C29", "title": "CENTROID, VERTEX, DUNAVANT2 and DUNAVANT3 are exact", "statement": "The rules integrate every bivariate polynomial of total degree 1, 1, 2 and 3 respectively exactly over the unit triangle.", "quantifier": "all polynomials of the given degree", "why_tests_cant": "Tests draw one random polynomial.", "anchors": ["src/tvemoves_rufbad/quadrature_rules.py: CENTROID, VERTEX, DUNAVANT2, DUNAVANT3"]}
{"id": "C30", "title": "DUNAVANT4 and DUNAVANT5 are exact up to the printed digits", "statement": "The rules integrate every polynomial of total degree at most 4 resp. 5 over the unit triangle with error at most 5e-16 (half a unit of the last printed digit) times the sum of the absolute values of its coefficients.", "quantifier": "all polynomials of the given degree", "why_tests_cant": "Tests draw one random polynomial.", "anchors": ["src/tvemoves_rufbad/quadrature_rules.py: DUNAVANT4, DUNAVANT5"]}
{"id": "C31", "title": "Gauss rules are transported to the unit interval", "statement": "If leggauss(n) is exact for polynomials of degree d on [-1,1], GaussQuadratureRule(n) is exact for polynomials of degree d on [0,1], its points lie in [0,1] and its weights sum to 1; GaussQuadratureRule(1) is the midpoint rule.", "quantifier": "all degrees and polynomials", "why_tests_cant": "The claim ranges over infinitely many inputs; the repository's tests sample a single size with random entries.", "anchors": ["src/tvemoves_rufbad/quadrature_rules.py: GaussQuadratureRule"]}
{"id": "C32", "title": "The triangle integrator integrates", "statement": "Integrator(rule, triangles, points)(f) is linear in f, returns the total area for f = 1, is monotone when the weights are nonnegative, and for a rule exact up to degree d equals the sum of the integrals of f over the triangles whenever f is a polynomial of degree <= d on each triangle, whatever the shape and orientation of the triangles.", "quantifier": "all meshes, all integrands", "why_tests_cant": "The claim ranges over infinitely many inputs; the repository's tests sample a single size with random entries.", "anchors": ["src/tvemoves_rufbad/integrators.py: Integrator"]}
{"id": "C33", "title": "The boundary integrator integrates", "statement": "BoundaryIntegrator(degree, edges, points)(f) is linear in f, returns the total edge length for f = 1 and is exact for integrands that are polynomial of the rule's degree along each edge.", "quantifier": "all edge lists, all integrands", "why_tests_cant": "The claim ranges over infinitely many inputs; the repository's tests sample a single size with random entries.", "anchors": ["src/tvemoves_rufbad/integrators.py: BoundaryIntegrator"]}
{"id": "C34", "title": "P1 interpolation is affine interpolation", "statement": "P1Interpolation takes the given values at vertices, is affine on each triangle, reproduces every affine function and its gradient exactly, lies between the smallest and largest vertex value, and agrees on a common edge of two triangles; the constructor raises ValueError when the number of parameters differs from the number of vertices and hessian raises NotImplementedError.", "quantifier": "all grids, parameters, triangles, coordinates", "why_tests_cant": "Tests draw one random affine function.", "anchors": ["src/tvemoves_rufbad/interpolation.py: P1Interpolation", "src/tvemoves_rufbad/bell_finite_element.py: transform_gradient"]}
{"id": "C35", "title": "P1 gradient is the derivative of the interpolation", "statement": "On every nondegenerate triangle the value returned by P1Interpolation.gradient is the Euclidean gradient of the interpolated function.", "quantifier": "all triangles, parameters, points", "why_tests_cant": "The claim ranges over infinitely many inputs; the repository's tests sample a single size with random entries.", "anchors": ["src/tvemoves_rufbad/interpolation.py: P1Interpolation.gradient", "src/tvemoves_rufbad/bell_finite_element.py: transform_gradient, _get_a, _get_b, _get_c"]}
{"id": "C36", "title": "P1 edge values agree with triangle values", "statement": "P1Interpolation.on_edge((i, j), t) equals the interpolation at the point t*p_i + (1-t)*p_j of any triangle having i, j as vertices, and on_edge((j, i), 1-t) gives the same value.", "quantifier": "all triangles, edges and t", "why_tests_cant": "The claim ranges over infinitely many inputs; the repository's tests sample a single size with random entries.", "anchors": ["src/tvemoves_rufbad/interpolation.py: P1Interpolation.on_edge, P1BoundaryInterpolation"]}
{"id": "C37", "title": "C1 interpolation matches its nodal data", "statement": "At each vertex of a nondegenerate triangle the Bell interpolation has the prescribed value, gradient and Hessian (the six parameters u, u_x, u_y, u_xx, u_xy, u_yy of that vertex).", "quantifier": "all nondegenerate triangles, all 18 parameters", "why_tests_cant": "The claim ranges over infinitely many inputs; the repository's tests sample a single size with random entries.", "anchors": ["src/tvemoves_rufbad/bell_finite_element.py: bell_interpolation, bell_interpolation_gradient, bell_interpolation_hessian"]}
{"id": "C38", "title": "C1 interpolation reproduces quartics", "statement": "If the parameters are the nodal data of a polynomial of degree at most 4 then the interpolation equals the polynomial on the whole triangle, its gradient the polynomial's gradient and its Hessian the polynomial's Hessian.", "quantifier": "all nondegenerate triangles, all quartic polynomials, all points", "why_tests_cant": "Tests draw one random polynomial on fixed triangles.", "anchors": ["src/tvemoves_rufbad/bell_finite_element.py"]}
{"id": "C39", "title": "C1 gradient and Hessian are derivatives of the interpolation", "statement": "bell_interpolation_gradient and bell_interpolation_hessian are the first and second Euclidean derivatives of bell_interpolation, for arbitrary parameters.", "quantifier": "all nondegenerate triangles, all parameters, all points", "why_tests_cant": "The claim ranges over infinitely many inputs; the repository's tests sample a single size with random entries.", "anchors": ["src/tvemoves_rufbad/bell_finite_element.py: transform_gradient, transform_hessian"]}
{"id": "C40", "title": "C1 interpolation is continuously differentiable across edges", "statement": "Two triangles sharing an edge and the parameters at its two vertices give the same value and the same gradient at every point of that edge, whatever the third vertices and their parameters.", "quantifier": "all pairs of nondegenerate triangles sharing an edge, all parameters", "why_tests_cant": "No test covers continuity; the property is what C1 means.", "anchors": ["src/tvemoves_rufbad/bell_finite_element.py", "src/tvemoves_rufbad/interpolation.py: C1Interpolation"]}
{"id": "C41", "title": "C1 edge values agree with triangle values", "statement": "C1Interpolation.on_edge((i, j), t) equals the interpolation inside any triangle with vertices i, j at the point t*p_i + (1-t)*p_j, and reversing the edge gives the same function.", "quantifier": "all triangles, edges, parameters, t", "why_tests_cant": "Tests check one edge of one triangle.", "anchors": ["src/tvemoves_rufbad/bell_finite_element.py: _shape_function_on_edge, bell_interpolation_on_edge", "src/tvemoves_rufbad/interpolation.py: C1Interpolation.on_edge"]}
{"id": "C42", "title": "Cyclic permutation of symbols", "statement": "The substitution that generates the shape functions of the second and third vertex is the simultaneous cyclic renaming of L1,L2,L3 (and b, c) in every expression not using the auxiliary symbol, and applying it three times is the identity.", "quantifier": "all symbolic expressions", "why_tests_cant": "Tests check the six expressions used.", "anchors": ["src/tvemoves_rufbad/bell_finite_element.py: _single_cyclic_permutation, _cyclic_permutation"]}
{"id": "C43", "title": "Refined interpolation is the coarse interpolation", "statement": "RefinedInterpolation evaluates value, gradient and Hessian of the coarse interpolation at the same Euclidean point; on fine boundary edges on_edge does as well.", "quantifier": "all refined grids, fine triangles, coordinates, parameters", "why_tests_cant": "The claim ranges over infinitely many inputs; the repository's tests sample a single size with random entries.", "anchors": ["src/tvemoves_rufbad/interpolation.py: RefinedInterpolation", "src/tvemoves_rufbad/domain.py: RefinedGrid"]}
{"id": "C44", "title": "Euclidean evaluation", "statement": "EuclideanInterpolation(x, y) evaluates the interpolation at the Euclidean point (x, y) for every point of the domain rectangle and raises ValueError outside; for P1 interpolations of affine data the result is the affine function; EuclideanDeformation evaluates both components, stacks gradients to the strain and Hessians to the hyper strain.", "quantifier": "all grids, parameters, points", "why_tests_cant": "The claim ranges over infinitely many inputs; the repository's tests sample a single size with random entries.", "anchors": ["src/tvemoves_rufbad/interpolation.py: EuclideanInterpolation, EuclideanDeformation, Deformation"]}
{"id": "C45", "title": "Interpolation constructors validate their parameters", "statement": "C1Interpolation raises ValueError unless there is one list of exactly six values per vertex; P1BoundaryInterpolation raises ValueError unless there is one value per boundary vertex; bell_interpolation and its derivatives raise ValueError unless given 18 parameters.", "quantifier": "all parameter lists", "why_tests_cant": "The claim ranges over infinitely many inputs; the repository's tests sample a single size with random entries.", "anchors": ["src/tvemoves_rufbad/interpolation.py", "src/tvemoves_rufbad/bell_finite_element.py"]}
{"id": "C46", "title": "Austenite percentage is a percentage", "statement": "austenite_percentage maps [0, inf) into [0, 1), is 0 at 0 and strictly increasing.", "quantifier": "all temperatures >= 0", "why_tests_cant": "The claim ranges over infinitely many inputs; the repository's tests sample a single size with random entries.", "anchors": ["src/tvemoves_rufbad/helpers.py: austenite_percentage"]}
{"id": "C47", "title": "Internal energy weight and its antiderivative", "statement": "internal_energy_weight(t) = a(t) - t a'(t) for a = austenite_percentage; it is nonnegative and increasing on [0, inf); antider_internal_energy_weight vanishes at 0 and has internal_energy_weight as derivative.", "quantifier": "all temperatures", "why_tests_cant": "The claim ranges over infinitely many inputs; the repository's tests sample a single size with random entries.", "anchors": ["src/tvemoves_rufbad/helpers.py: internal_energy_weight, antider_internal_energy_weight"]}
{"id": "C48", "title": "Austenite potential has its well exactly at the rotations", "statement": "For every strain with positive determinant austenite_potential(F) >= 0 with equality exactly for rotations; it is unchanged by composing with a rotation on either side.", "quantifier": "all 2x2 matrices with positive determinant, all rotations", "why_tests_cant": "The claim ranges over infinitely many inputs; the repository's tests sample a single size with random entries.", "anchors": ["src/tvemoves_rufbad/helpers.py: austenite_potential"]}
{"id": "C49", "title": "Martensite potential has its wells exactly at the two documented variants", "statement": "martensite_potential(F) >= 0 for det F != 0; it vanishes at [1 0.5; 0 1] and [1 -0.5; 0 1] and their rotations (README), and nowhere else; it is frame indifferent.", "quantifier": "all 2x2 matrices with nonzero determinant", "why_tests_cant": "Zero sets cannot be sampled.", "anchors": ["src/tvemoves_rufbad/helpers.py: martensite_potential", "README.md"]}
{"id": "C50", "title": "Stress functions are derivatives of the potentials", "statement": "derivative_austenite_potential, derivative_martensite_potential and strain_derivative_coupling_potential are the derivatives in the strain of the corresponding potentials at every strain with positive determinant.", "quantifier": "all strains with det > 0, all temperatures", "why_tests_cant": "The claim ranges over infinitely many inputs; the repository's tests sample a single size with random entries.", "anchors": ["src/tvemoves_rufbad/helpers.py"]}
{"id": "C51", "title": "Dissipation potential", "statement": "dissipation_potential(F0, F) >= 0, is 0 for F = F0, is quadratic in F - F0, is invariant under a common rotation of F0 and F, and vanishes for increments W F0 with W skew; dissipation_rate is twice the dissipation potential divided by the squared time step.", "quantifier": "all strains, rotations, fps", "why_tests_cant": "The claim ranges over infinitely many inputs; the repository's tests sample a single size with random entries.", "anchors": ["src/tvemoves_rufbad/helpers.py: dissipation_potential, dissipation_rate, symmetrized_strain_delta"]}
{"id": "C52", "title": "Reference heat conductivity is symmetric positive definite", "statement": "For det F > 0 heat_conductivity_reference(F) is symmetric positive definite and equals det(F) F^-1 F^-T, so the diffusion term of the thermal energy is nonnegative; it is frame indifferent; singular strains raise.", "quantifier": "all strains with positive determinant, all temperature gradients", "why_tests_cant": "The claim ranges over infinitely many inputs; the repository's tests sample a single size with random entries.", "anchors": ["src/tvemoves_rufbad/helpers.py: heat_conductivity_reference", "src/tvemoves_rufbad/thermal_step.py: _energy_potential"]}
{"id": "C53", "title": "Total elastic potential interpolates between the phases", "statement": "total_elastic_potential(F, t) is a convex combination of the austenite and martensite potentials for t >= 0, equals the martensite potential at t = 0, is nonnegative for det F > 0, and tends to the austenite potential as t grows.", "quantifier": "all strains with det > 0, all temperatures >= 0", "why_tests_cant": "The claim ranges over infinitely many inputs; the repository's tests sample a single size with random entries.", "anchors": ["src/tvemoves_rufbad/helpers.py: total_elastic_potential"]}
{"id": "C54", "title": "Thermodynamic consistency of the internal energy", "statement": "internal_energy(F, t) = W(F,t) - t dW/dt(F,t) + ENTROPY_CONSTANT * t where W is the coupling part of the total elastic potential, and temp_antrider_internal_energy_no_entropy is its temperature antiderivative without entropy term.", "quantifier": "all strains with det > 0, all temperatures", "why_tests_cant": "The claim ranges over infinitely many inputs; the repository's tests sample a single size with random entries.", "anchors": ["src/tvemoves_rufbad/helpers.py: internal_energy, internal_energy_no_entropy, temp_antrider_internal_energy_no_entropy"]}
{"id": "C55", "title": "Simulation parameters accepted by the constructor are usable", "statement": "SimulationParams raises ValueError for a negative initial temperature, nonpositive search radius, nonpositive fps, nonpositive scale, negative regularization, nonpositive refinement factor, or a regularization without refinement factor; every accepted parameter set can be used to start a simulation; without regularization the refinement factor is dropped.", "quantifier": "all parameter values", "why_tests_cant": "Validation must be complete for all values.", "anchors": ["src/tvemoves_rufbad/simulation.py: SimulationParams"]}
{"id": "C56", "title": "Step data round-trip and shape checks", "statement": "After update_prev_y(a) with a correctly shaped array, prev_y() returns a, y() returns a as starting guess and the search range of every component is centred at a with the search radius; update_prev_theta likewise; a wrongly shaped array raises ValueError and changes nothing; all other data are unchanged.", "quantifier": "all grids, arrays and states, with and without regularization", "why_tests_cant": "The claim ranges over infinitely many inputs; the repository's tests sample a single size with random entries.", "anchors": ["src/tvemoves_rufbad/mechanical_step.py", "src/tvemoves_rufbad/thermal_step.py"]}
{"id": "C57", "title": "Fixed boundary never moves", "statement": "In every recorded step of every simulation the deformation at each Dirichlet vertex is the identity, provided the solver leaves fixed variables alone.", "quantifier": "all domains, parameters, external data, solver outcomes, numbers of steps", "why_tests_cant": "Must hold after arbitrarily many steps.", "anchors": ["src/tvemoves_rufbad/mechanical_step.py: _model", "src/tvemoves_rufbad/simulation.py: Simulation"]}
{"id": "C58", "title": "Search radius bounds every step", "statement": "If the solver respects variable bounds, every recorded step is within search_radius (in every component of deformation and temperature) of the state its problems started from; as long as no solve has failed this state is the previous recorded step, so consecutive recorded deformations and temperatures differ by at most search_radius, hence after k steps by at most k * search_radius.", "quantifier": "all simulations, vertices, numbers of steps; the bound between consecutive steps: all simulations without a failed solve", "why_tests_cant": "Must hold after arbitrarily many steps.", "anchors": ["src/tvemoves_rufbad/mechanical_step.py", "src/tvemoves_rufbad/thermal_step.py", "src/tvemoves_rufbad/simulation.py"]}
{"id": "C59", "title": "Temperatures stay nonnegative", "statement": "If the solver respects variable bounds and domains, every recorded temperature is nonnegative, and updating a step with recorded temperatures never fails validation.", "quantifier": "all simulations and numbers of steps", "why_tests_cant": "Must hold after arbitrarily many steps.", "anchors": ["src/tvemoves_rufbad/thermal_step.py", "src/tvemoves_rufbad/simulation.py"]}
{"id": "C60", "title": "Number of steps and time stamps", "statement": "After construction there are 2 recorded steps, each run(n) with n >= 1 adds exactly n; the k-th recorded step (k >= 1) is computed with boundary traction and external temperature evaluated at time (k-1)/fps.", "quantifier": "all sequences of run calls, successful or failing", "why_tests_cant": "Must hold for every history of run calls.", "anchors": ["src/tvemoves_rufbad/simulation.py: Simulation.__init__, run, _run_single_step, _append_step"]}
{"id": "C61", "title": "Staggered scheme dataflow", "statement": "Step k+1 is computed from step k only: the mechanical solve starts at and measures dissipation against the deformation and temperature of step k; the thermal solve uses the deformation of step k, the new deformation and the temperature of step k; the new step records the mechanical solution and the thermal solution. After failed calls of run, every recorded step still records the answers to two consecutive successfully solved problems, the thermal one built from the previous data and the solution of the mechanical one.", "quantifier": "all simulations and numbers of steps; the relation to the previous recorded step: all simulations without a failed solve (see C71 for the others)", "why_tests_cant": "Must hold for every history.", "anchors": ["src/tvemoves_rufbad/simulation.py: _update_mechanical_step, _update_thermal_step, _run_single_step"]}
{"id": "C62", "title": "Plot ranges cover all recorded steps", "statement": "max_temp() is the largest recorded temperature (at least 0) and the axis limits are exactly the bounding box of all recorded vertex positions.", "quantifier": "all simulations, with and without regularization", "why_tests_cant": "Must hold for every history.", "anchors": ["src/tvemoves_rufbad/simulation.py: _append_step, max_temp"]}
{"id": "C63", "title": "Mechanical steps do not increase the energy", "statement": "If the solver returns a point whose objective is not larger than at the starting guess, then elastic energy minus boundary work plus fps times dissipation after the step is at most elastic energy minus boundary work before the step; the dissipation vanishes at the starting guess.", "quantifier": "all grids, states, temperatures, tractions; all steps of simulations without a failed solve", "why_tests_cant": "The claim ranges over infinitely many inputs; the repository's tests sample a single size with random entries.", "anchors": ["src/tvemoves_rufbad/mechanical_step.py: _model, boundary_traction_potential"]}
{"id": "C64", "title": "Regularized Dirichlet constraints mean identity on the edge", "statement": "If the six constraints per component hold for a Dirichlet edge then the C1 deformation restricted to the edge is the identity, and conversely an identity edge restriction satisfies them; the initial data satisfy them.", "quantifier": "all edges, all parameters, all points of the edge", "why_tests_cant": "The claim ranges over infinitely many inputs; the repository's tests sample a single size with random entries.", "anchors": ["src/tvemoves_rufbad/mechanical_step.py: _dirichlet_constraint_regularized, _model_regularized"]}
{"id": "C65", "title": "Boundary data act in regularized simulations as well", "statement": "The boundary traction and external temperature passed to Simulation influence regularized simulations.", "quantifier": "all simulations with regularization", "why_tests_cant": "Absence of influence is a statement about all callables.", "anchors": ["src/tvemoves_rufbad/mechanical_step.py: _MechanicalStepRegularized", "src/tvemoves_rufbad/thermal_step.py: _ThermalStepRegularized"]}
{"id": "C66", "title": "run composes and rejects nonpositive counts", "statement": "run(n) with n <= 0 raises ValueError and changes nothing; run(a) followed by run(b) is the same as run(a+b); recorded steps are never changed by later runs; if the solver always succeeds from feasible starting points, run(n) with n > 0 never raises.", "quantifier": "all simulations and counts", "why_tests_cant": "Must hold for all counts and histories.", "anchors": ["src/tvemoves_rufbad/simulation.py: run"]}
{"id": "C67", "title": "A failing solver loses no recorded step", "statement": "If a solve raises during run, all steps recorded before are still there unchanged and no partial step is recorded.", "quantifier": "all failure points", "why_tests_cant": "Every failure point must be considered.", "anchors": ["src/tvemoves_rufbad/simulation.py: run, _run_single_step"]}
{"id": "C68", "title": "Initial state", "statement": "The first recorded step is the identity deformation with the initial temperature at every vertex; its strain is the identity matrix on every triangle (hyper strain 0 with regularization), dissipation 0, elastic energy (1 - austenite_percentage(theta0))/16 times the area of the grid.", "quantifier": "all domains and parameters", "why_tests_cant": "The claim ranges over infinitely many inputs; the repository's tests sample a single size with random entries.", "anchors": ["src/tvemoves_rufbad/simulation.py", "src/tvemoves_rufbad/mechanical_step.py"]}
{"id": "C69", "title": "Thermal objective", "statement": "The thermal objective is the quadrature of diffusion minus heat sources plus boundary heat transfer plus fps times dissipation; its derivative in direction of a temperature perturbation is the discrete weak heat balance: change of internal energy times fps, minus dissipation rate and adiabatic coupling, plus conduction and boundary exchange.", "quantifier": "all states and perturbations; steps of simulations: of simulations without a failed solve", "why_tests_cant": "The claim ranges over infinitely many inputs; the repository's tests sample a single size with random entries.", "anchors": ["src/tvemoves_rufbad/thermal_step.py: _energy_potential, _dissipation_potential, _boundary_potential, _add_objective"]}
{"id": "C70", "title": "Hyperelastic potential", "statement": "hyper_elastic_potential(H) is the third power of the Euclidean norm of the hyperstrain: nonnegative, zero exactly for H = 0, homogeneous of degree 3, and unchanged by an orthogonal change of the deformed configuration.", "quantifier": "all hyperstrains, all orthogonal matrices, all scalings", "why_tests_cant": "The claim ranges over infinitely many inputs; no test covers this function.", "anchors": ["src/tvemoves_rufbad/helpers.py: hyper_elastic_potential", "src/tvemoves_rufbad/tensors.py: Tensor3D.norm"]}
{"id": "C71", "title": "Retrying after a failed step", "statement": "If run raises because a solve failed, calling run again continues from the last recorded step: the first problem posed to the solver has the deformation and temperature of the last recorded step as previous data.", "quantifier": "all simulations, failure points and solvers", "why_tests_cant": "The claim ranges over all crash points and histories; the repository has no test with a failing solver.", "anchors": ["src/tvemoves_rufbad/simulation.py: Simulation.run, _run_single_step"]}
{"id": "C72", "title": "Recorded steps evaluate to the recorded data", "statement": "The deformation and temperature objects of a recorded step, evaluated at the vertices of their grid, give the recorded nodal data.", "quantifier": "all recorded steps of all simulations", "why_tests_cant": "The claim ranges over all simulations and vertices.", "anchors": ["src/tvemoves_rufbad/simulation.py: Step, _append_step"]}
{"id": "C73", "title": "Recorded deformations preserve orientation", "statement": "If the solver never increases the objective, every recorded deformation has positive determinant of the strain at all quadrature points of the elastic energy; without regularization no triangle is turned over or collapsed.", "quantifier": "all reachable simulations, including after failed steps", "why_tests_cant": "The claim ranges over all simulations, solvers and histories.", "anchors": ["src/tvemoves_rufbad/mechanical_step.py: _model, _model_regularized", "src/tvemoves_rufbad/helpers.py: total_elastic_potential"]}
{"id": "C74", "title": "Plots of recorded steps show the recorded data", "statement": "plot_step, save_step and save_animation never raise because of a recorded step: every recorded step can be plotted, the plotted points are the images of the plotting grid under the recorded deformation, the colours the recorded temperatures, all within the axis limits and the colour range; indices outside the range of recorded steps are ignored, the file name carries the position of the step, and the animation has one frame per step in order.", "quantifier": "all recorded steps of all simulations, all indices", "why_tests_cant": "The claim ranges over all simulations, histories and indices; the repository does not test plotting.", "anchors": ["src/tvemoves_rufbad/simulation.py: AbstractStep.plot, _plot_temperature, _plot_deformation_curves, Simulation.plot_step, save_step, save_animation"]}
{"id": "C75", "title": "Plots of grids and domains", "statement": "grid.plot(ax) draws every vertex at its position and one segment per edge and only widens the axis limits so that they contain the grid; domain.plot() draws the rectangle of the domain; called without axis both create one.", "quantifier": "all grids, domains and axes", "why_tests_cant": "The claim ranges over all grids and prior axis limits; the repository does not test plotting.", "anchors": ["src/tvemoves_rufbad/domain.py: Grid.plot, RectangleDomain.plot, _adjust_xlim, _adjust_ylim"]}
{"id": "C76", "title": "Comparing, iterating and exporting tensors", "statement": "a == b holds exactly if a and b are of the same class, have the same shape and the same entries, and is an equivalence relation; iterating over a vector or barycentric coordinates yields exactly the entries v[0], ..., v[len(v)-1]; numpy() returns an array of the same shape with the same entries.", "quantifier": "all vectors, matrices and 3-d tensors of all shapes and entries", "why_tests_cant": "Shapes and entries are unbounded; tests compare a few literals.", "anchors": ["src/tvemoves_rufbad/tensors.py: Vector.__eq__, Vector.__iter__, Vector.__len__, Vector.numpy, BarycentricCoordinates.__iter__, BarycentricCoordinates.__len__, Matrix.__eq__, Matrix.numpy, Tensor3D.__eq__, Tensor3D.numpy"]}
{"id": "C77", "title": "Printed tensors and steps are unambiguous", "statement": "repr(a) and str(a) exist for every tensor, and two tensors (of any classes and shapes) with the same repr, or with the same str, are equal, provided different entries print differently and entry texts contain no separators or brackets. Two recorded steps have the same repr (or str) exactly if the texts of their deformation arrays and of their temperature arrays agree.", "quantifier": "all vectors, matrices, 3-d tensors and barycentric coordinates, all pairs of recorded steps, all shapes, all entry texts", "why_tests_cant": "Injectivity is a statement about all pairs of objects.", "anchors": ["src/tvemoves_rufbad/tensors.py: Vector.__repr__, Vector.__str__, BarycentricCoordinates.__repr__, BarycentricCoordinates.__str__, Matrix.__repr__, Matrix.__str__, Tensor3D.__repr__, Tensor3D.__str__", "src/tvemoves_rufbad/simulation.py: AbstractStep.__repr__, AbstractStep.__str__"]}
{"id": "C80", "title": "Frame indifference of the simulation", "statement": "Following a deformation by a rotation and a translation does not change its elastic energy (nor whether it is defined) and its hyper elastic energy; following the previous and the new deformation by the same rotation does not change the dissipation, the objective of the mechanical step of regularized simulations, and the objective of the thermal step as a function of the temperature.", "quantifier": "all simulations, all arrays of the shape returned by y(), all rotations and translations, with and without regularization", "why_tests_cant": "Rotation angles, arrays, grids and refinements range over infinite sets; tests check single strains.", "anchors": ["src/tvemoves_rufbad/mechanical_step.py: objective", "src/tvemoves_rufbad/thermal_step.py: objective", "src/tvemoves_rufbad/helpers.py: total_elastic_potential, dissipation_potential, hyper_elastic_potential, heat_conductivity_reference, strain_derivative_coupling_potential"]}
{"id": "C78", "title": "Every problem posed to the solver has an optimal solution", "statement": "The optimization problems the simulation poses are well-posed: if a problem has an admissible solution (bounds, fixed variables, domains, constraints) with a defined objective, then it has an admissible solution whose objective is smallest, although the objective is not defined everywhere and blows up. With a solver that keeps constraints and does not increase the objective every posed problem has one, and there is a solver that meets all contracts and answers every problem of every simulation optimally.", "quantifier": "all simulations, all problems posed in them, with and without regularization", "why_tests_cant": "Tests cannot decide whether a minimum over a continuum is attained; a numerical solver returns some point in any case.", "anchors": ["src/tvemoves_rufbad/mechanical_step.py: objective, variables, constraints", "src/tvemoves_rufbad/thermal_step.py: objective, variables", "src/tvemoves_rufbad/simulation.py: Simulation.run"]}
{"id": "C79", "title": "Rounding does not break gridding and refinement", "statement": "In double arithmetic RectangleDomain(w, h).grid(s) has k cells along a side when w and s are decimals with w = k s, covers the rectangle up to one cell and exceeds it at most by rounding; and a grid produced by refine can be refined again, because the vertices refine computes are horizontally and vertically aligned up to the tolerance 1e-15 that refine demands.", "quantifier": "all widths, scales, triangles and refinement factors, all doubles", "why_tests_cant": "Rounding errors depend on every single number; a test tries a handful of them.", "anchors": ["src/tvemoves_rufbad/domain.py: RectangleDomain.grid, RectangleDomain.refine, _refine_equilateral_triangle", "src/tvemoves_rufbad/simulation.py: plotting grid of RegularizedStep"]}
{"id": "C81", "title": "Refinements compose", "statement": "Refining a grid by a and the result by b gives a grid that compares equal to the grid refined by a*b at once, whatever the domain object refine is called on; hence the order of refinements does not matter, and refining by one gives a grid equal to the original, with the same points.", "quantifier": "all grids produced by the library (including already refined ones), all factors a, b >= 1 with fine cells of side at least 1e-15", "why_tests_cant": "The claim ranges over all grids and pairs of factors, including iterated refinement, and over the boundary tags that refinement carries along.", "anchors": ["src/tvemoves_rufbad/domain.py: RectangleDomain.refine, _refine_equilateral_triangle, Grid.__eq__"]}
{"id": "C82", "title": "Set iteration order and the spelling of fix do not influence results", "statement": "Grids, refinements and simulations do not depend on the (unspecified) iteration order of Python sets nor on how fix is spelled (order, repetition, a single option or a list, unknown strings): grids with the same fixed sides agree up to the order of their boundary lists; so do their refinements; the problems posed to the solver have the same unknowns, objective, constraints and optimal solutions; and with a solver whose answers do not depend on that order, two simulations return or raise the same in each call and record the same steps, times, limits and maximal temperature.", "quantifier": "all pairs of iteration orders of sets, all rectangles, scales, parameters and fix arguments naming the same sides, all boundary data, all solvers that do not see the order, all sequences of run calls, raising or not", "why_tests_cant": "One run of the interpreter uses one iteration order (which depends on hash seeds); the claim compares all orders along all histories of a simulation.", "anchors": ["src/tvemoves_rufbad/domain.py: RectangleDomain.grid, RectangleDomain.refine", "src/tvemoves_rufbad/mechanical_step.py: _model, _model_regularized", "src/tvemoves_rufbad/thermal_step.py: _model, _model_regularized", "src/tvemoves_rufbad/simulation.py: Simulation.__init__, Simulation.run"]}
{"id": "C83", "title": "Grids are independent objects", "statement": "domain.grid and domain.refine change no object that existed before the call (in particular not the coarse grid, also when they raise), and the grid they return shares no mutable object with any earlier grid: whatever is later done in place to one of them does not show in the other. append_edge changes only the grid it is called on. A refined grid hands out the coarse grid itself (not a copy) as its coarse grid, so edges appended to the coarse grid show there. The Grid constructor on the other hand keeps the lists it is given, so two grids built from the same lists share their edges.", "quantifier": "all memory states, grids in them, rectangles, scales, refinement factors, iteration orders of sets, edges, and all in-place changes of the objects of a grid", "why_tests_cant": "A test observes particular later mutations of particular grids; independence is about every possible later mutation and every other grid in memory.", "anchors": ["src/tvemoves_rufbad/domain.py: RectangleDomain.grid, RectangleDomain.refine, Grid.__init__, Grid.append_edge, RefinedGrid"]}
{"id": "C84", "title": "Heat capacity and uniqueness of the temperature of a step", "statement": "The internal energy of a strain is differentiable in the temperature t with derivative (heat capacity) 10 + 25 t exp(-5 t) (W_A - W_M), and increases strictly for t >= 0 exactly if the martensite potential of the strain exceeds the austenite potential by at most 2e; there are strains of determinant 1 for which it decreases somewhere. If all strains at the quadrature points of a recorded step are of the first kind, then the temperature of the step is determined: all optimal solutions of its thermal problem agree, at most one nonnegative temperature satisfies the discrete heat balance of the step, and an admissible temperature that satisfies it is optimal.", "quantifier": "all strains and temperatures; all simulations without a failed solve, all their steps, all pairs of optimal solutions of the thermal problem of the step, and all temperatures satisfying the heat balance", "why_tests_cant": "Uniqueness compares all admissible temperatures of a problem with a continuum of unknowns; a test sees the one the solver returned. Monotonicity of the internal energy is a statement about all pairs of temperatures.", "anchors": ["src/tvemoves_rufbad/helpers.py: internal_energy, austenite_potential, martensite_potential", "src/tvemoves_rufbad/thermal_step.py: _ThermalStep, _ThermalStepRegularized (objective)"]}
{"id": "C85", "title": "Point location and evaluation survive rounding", "statement": "In double arithmetic (every operation rounded), each point of the rectangle covered by a grid is located in a triangle that contains it up to the tolerance of the point location, and the computed barycentric coordinates agree with the exact ones up to 1e-12; the vertices of a refinement, as computed in double arithmetic, are located in the coarse grid as well; and the value of a piecewise affine function at a located point agrees with the affine interpolation in that triangle up to 4e-12 times the largest nodal value. This holds for mesh sizes of at least 1e-4 and rectangles of side length up to 98; for a rectangle of size 1000 it fails: a vertex of a refinement is found in no triangle of the coarse grid and evaluating there raises ValueError.", "quantifier": "all grids of rectangles (numbers of cells, mesh size), all points with coordinates that are doubles or rational numbers, all refinement factors, all nodal values", "why_tests_cant": "Rounding errors depend on every bit of the input; tests evaluate at a few points of a few grids. The bound has to hold for all of the points, including those on edges and on the boundary, where rounding decides which triangle is found.", "anchors": ["src/tvemoves_rufbad/domain.py: _sign, _triangle_contains_point, _to_barycentric_coordinates, Grid.to_barycentric_point", "src/tvemoves_rufbad/interpolation.py: P1Interpolation.__call__, EuclideanInterpolation"]}
{"id": "C86", "title": "Parameters act only at creation; recorded steps are output only", "statement": "The attributes `params` and `steps` of a simulation are public. Replacing the recorded steps by any list, and the parameters by any others that agree on whether there is a regularization, changes no later run: it succeeds or raises as before, appends the same new steps, poses the same problems to the solver and leaves the same state otherwise. If the new parameters switch the regularization on or off, every later run raises and records nothing; a run that would have succeeded raises ValueError.", "quantifier": "all simulations (for the switch: all reachable ones), all parameters and lists of steps assigned, all solvers and numbers of steps", "why_tests_cant": "It is a statement about all pairs of runs that differ in an attribute: a test compares a few values of a few parameters for a run of a few steps.", "anchors": ["src/tvemoves_rufbad/simulation.py: Simulation.__init__, _append_step, _run_single_step, run"]}
{"id": "C87", "title": "Double precision grids and refinements have the exact combinatorics", "statement": "Creating a grid and refining it in IEEE double precision arithmetic gives exactly the vertices, edges, triangles, boundaries, Dirichlet and Neumann parts (in the same order) and exactly the fine-to-coarse cell maps of the same computation in exact arithmetic; only the coordinates (by at most 15 units of 2^-53 of the extent) and the weights (by at most 8 units of 2^-53) differ. In particular the approximate comparisons of points during refinement never confuse two vertices and never miss one that exists already, and afterwards looking up the coordinates of a vertex finds exactly that vertex.", "quantifier": "all rectangles, fix options and positive double mesh sizes s with at least one cell per direction, all refinement factors n with n times the number of cells per direction at most 10^6 and s/n at least 2e-15", "why_tests_cant": "Whether rounding errors make two points be confused depends on every mesh size, number of cells and refinement factor; tests try a few.", "anchors": ["src/tvemoves_rufbad/domain.py: Grid.__init__, Grid.point_to_vertex, Grid.append_edge, RectangleDomain.grid, RectangleDomain.refine, _refine_equilateral_triangle"]}
{"id": "C88", "title": "The formulation of a step is chosen by the regularization alone", "statement": "mechanical_step and thermal_step choose between the plain and the regularized formulation by params.regularization alone: without regularization a refined grid passed along is ignored and the arrays have shapes (N, 2) and (N,); with regularization a missing refined grid raises ValueError whatever the other arguments are, the boundary data are ignored, and the arrays have shapes (N, 2, 6) and (M,), where N and M are the numbers of vertices of the grid and of the refined grid. A thermal step reports exactly the arrays it was created with, and starts the temperature at the previous one.", "quantifier": "all grids of the library, refined or not, all parameters, arrays and boundary data", "why_tests_cant": "Independence of ignored arguments ranges over all pairs of calls differing in them; shapes range over all grids.", "anchors": ["src/tvemoves_rufbad/mechanical_step.py: mechanical_step", "src/tvemoves_rufbad/thermal_step.py: thermal_step"]}
{"id": "C89", "title": "Slices of vectors follow Python's rules", "statement": "v[a:b:c] is the vector of exactly the entries of v at the positions from a towards b in steps of c: for positive c the positions p with a <= p < b and c dividing p - a in increasing order, for negative c those with b < p <= a and c dividing p - a in decreasing order, where negative bounds count from the end, bounds beyond the vector are cut off and missing bounds mean the whole vector. Step zero raises ValueError; no slice with any other step raises. v[:k] followed by v[k:] is v for every k, and v[::-1] is v reversed.", "quantifier": "all vectors over all entries, all integers or missing values for the three parts of a slice", "why_tests_cant": "Ranges over all sizes and all triples of integers, including bounds beyond both ends and steps of both signs.", "anchors": ["src/tvemoves_rufbad/tensors.py: Vector.__getitem__"]}
{"id": "C90", "title": "Operations on tensors change no tensor and, except stacking, return independent tensors", "statement": "No operation on vectors, matrices or third order tensors (arithmetic, map, slices, reshape, flatten, transpose, stack, extend, matmul, dot, inverse) changes any existing tensor or list, whatever happens with shared lists: each returns what it returns on values. Except for the constructors, Vector.stack, Vector.transpose and Matrix.stack, the result consists of new, pairwise different lists: changing any older list in place does not change the result, and changing the result in place changes no older tensor, also after any further operations. The constructors keep the list they are given, the rows of v.stack(w) and v.T are the lists of v and w, and the matrices of A.stack(B) are those of A and B, so later changes of these show in the result.", "quantifier": "all tensors in any sharing of lists, all operations, all later histories of operations and in-place changes", "why_tests_cant": "Ranges over all aliasing patterns of the operands and all later histories of operations and mutations.", "anchors": ["src/tvemoves_rufbad/tensors.py: Vector, Matrix, Tensor3D, inverse_2x2"]}
{"id": "C91", "title": "Time stamps in double precision", "statement": "The k-th single step of run passes the time k / fps to the boundary traction and the external temperature, computed in double precision: exactly if fps is a power of two. For every positive fps the times are strictly increasing and k / fps up to a relative error of (k + 1) / 2^52. (The code adds up rounded time steps, so they are not the doubles nearest to k / fps: at fps = 10 the 80th step is at a time less than 8, and a condition t >= 8 of the caller is still false.)", "quantifier": "all positive fps, all numbers of steps below 2^50", "why_tests_cant": "Ranges over all frame rates and all lengths of a simulation; rounding errors accumulate over the history.", "anchors": ["src/tvemoves_rufbad/simulation.py: Simulation.__init__, Simulation._append_step, Simulation.run"]}
{"id": "C92", "title": "Discrete balance of forces", "statement": "The mechanical objective is differentiable in every direction at every deformation with positive determinant of the strain, and its derivative is the virtual work of the elastic stress, plus fps times that of the viscous stress, minus that of the boundary traction (without regularization) or plus the weighted work of the hyperstress (with regularization). Consequently, whenever the solver returns an optimal mechanical step, the forces balance for every virtual displacement that vanishes on the fixed part of the boundary (at the fixed vertices, with regularization together with its first and second derivative along the fixed edges; the derivatives across them are free) and moves only coordinates whose change stayed strictly below the search radius; the search radius is therefore inactive unless it is reached. The elastic stress is the derivative of the potential and its Kirchhoff form is symmetric (no spurious torque); the viscous stress vanishes at the previous strain and is odd in the increment. If no part of the boundary is fixed and no coordinate moves by the search radius, the total boundary traction is zero: a free body that is pulled always moves by the search radius.", "quantifier": "all domains, parameters, boundary data, histories, steps, solvers returning optimal answers, virtual displacements; steps of simulations: of simulations without a failed solve", "why_tests_cant": "Quantifies over all virtual displacements and all histories, and is a statement about derivatives of the objective at minimisers of an arbitrary solver.", "anchors": ["src/tvemoves_rufbad/mechanical_step.py: _model, _model_regularized, boundary_traction_potential", "src/tvemoves_rufbad/helpers.py: total_elastic_potential, dissipation_potential, hyper_elastic_potential, compose_to_integrand", "src/tvemoves_rufbad/integrators.py: Integrator, BoundaryIntegrator"]}
{"id": "C93", "title": "Integrals over the domain and its boundary", "statement": "An integrator over the triangles of a grid of the library (refined or not) returns the exact integral over the rectangle of the grid for all polynomials up to the degree of its rule; for an arbitrary continuous integrand its error is at most the area times the variation over one cell (plus the defect of the weights), so it converges to the integral over the domain as the scale of the grid tends to zero, although the grid omits a strip of the domain when the scale does not divide its extents. The boundary edges together are the four sides of the rectangle, the Dirichlet edges exactly the fixed sides and the Neumann edges exactly the others, with respect to integration of any continuous function; boundary integrators over the Neumann edges are exact for polynomials on those sides.", "quantifier": "all domains, scales, refinements, quadrature rules, polynomials, continuous integrands", "why_tests_cant": "A limit over all grids and a statement about Lebesgue integrals of arbitrary functions.", "anchors": ["src/tvemoves_rufbad/integrators.py: Integrator, BoundaryIntegrator", "src/tvemoves_rufbad/quadrature_rules.py", "src/tvemoves_rufbad/domain.py: RectangleDomain.grid, refine"]}
{"id": "C94", "title": "Approximation by P1 interpolation", "statement": "The P1 interpolation of the nodal values of a function differs from the function at every point of every triangle by at most the variation of the function over one cell; for a function with Lipschitz gradient (constant M) the values are accurate to 2 M s^2 and each component of the gradient to M s, s being the grid scale; for a continuously differentiable function values and gradients converge uniformly, the values faster than s.", "quantifier": "all grids of the library, refined or not, all triangles and barycentric points, all functions with the stated regularity", "why_tests_cant": "Error bounds for all functions of a class and a limit over all grids.", "anchors": ["src/tvemoves_rufbad/interpolation.py: P1Interpolation", "src/tvemoves_rufbad/domain.py: RectangleDomain.grid"]}
{"id": "C95", "title": "Consistency of the objectives with the continuum energies", "statement": "Without regularization the objectives of the time step are consistent discretizations: for continuously differentiable previous and new deformations with gradients of positive determinant, continuous temperatures (the new one continuously differentiable for the thermal step), continuous traction and any external temperature, the objective evaluated at the nodal values converges, as the grid scale tends to zero, to the continuum functional: elastic energy, minus work of the traction on the sides that are not fixed, plus fps times dissipation for the mechanical step; integral of conduction minus heat production, plus heat exchange on all four sides, plus fps times the thermal dissipation for the thermal step. In particular the discrete strains of such deformations eventually have positive determinant, so the objectives can be evaluated.", "quantifier": "all domains, parameters without regularization, continuously differentiable deformations, temperatures, tractions, external temperatures, tolerances", "why_tests_cant": "A limit over all grids for all functions of a class.", "anchors": ["src/tvemoves_rufbad/mechanical_step.py: _model, boundary_traction_potential", "src/tvemoves_rufbad/thermal_step.py: _model, _add_objective, _energy_potential, _dissipation_potential, _boundary_potential", "src/tvemoves_rufbad/helpers.py: total_elastic_potential, dissipation_potential", "src/tvemoves_rufbad/integrators.py: Integrator, BoundaryIntegrator", "src/tvemoves_rufbad/interpolation.py: P1Interpolation, P1BoundaryInterpolation, Deformation"]}
{"id": "C96", "title": "Transition temperature", "statement": "The total elastic potential has a transition at the temperature log(3/2)/5, where one third of the material is austenite. From this temperature on the undeformed state has the smallest total elastic potential among all strains with positive determinant, and exactly the rotations share it; below it there are area preserving strains arbitrarily close to the identity with a smaller potential.", "quantifier": "all temperatures, all strains with positive determinant", "why_tests_cant": "A global minimum over all strains for all temperatures above an exact (irrational) threshold.", "anchors": ["src/tvemoves_rufbad/helpers.py: total_elastic_potential, austenite_percentage, austenite_potential, martensite_potential"]}
{"id": "C97", "title": "Equilibria stay at rest", "statement": "A warm undeformed body without traction stays undeformed: if all temperatures of a recorded step are at least the transition temperature log(3/2)/5, the strain is 1 at the quadrature points and no traction acts, then the next recorded step has strain 1 at the quadrature points. If the strains do not change and are moderate and the temperature is uniform and equal to the external temperature, the temperature does not change. Hence a simulation that starts warm, without traction and with external temperature equal to the initial one, records its initial state for ever; without regularization all vertices of every recorded step have the same displacement, and none if a side is fixed. This holds for every solver that does not increase the objective and returns nonnegative temperatures.", "quantifier": "all domains, parameters, histories, numbers of steps and solvers with the stated contract; steps of simulations: of simulations without a failed solve", "why_tests_cant": "Every step of every history, for every solver meeting the contract; a test with one solver cannot distinguish a minimum from a point where that solver happens to stop.", "anchors": ["src/tvemoves_rufbad/simulation.py: Simulation.run", "src/tvemoves_rufbad/mechanical_step.py", "src/tvemoves_rufbad/thermal_step.py", "src/tvemoves_rufbad/helpers.py: total_elastic_potential, dissipation_potential, internal_energy"]}
{"id": "C98", "title": "First law: the balance of heat of optimal steps", "statement": "If the solver answers a thermal problem optimally, the recorded temperatures satisfy the heat balance tested with every direction that stays admissible as an inequality, and tested with every direction supported where the temperature is positive and inside the search radius as an equality. Tested with the constant 1 this is the first law: the internal energy of the whole body changes, per time, by exactly the heat produced by dissipation and latent heat minus the heat lost through the boundary; conduction only redistributes heat. If temperatures may also have dropped to zero or to the lower end of the search radius (but none has reached the upper end), the change is at least this. Summed over a run, the internal energy of step n is that of the initial state plus all heat produced minus all heat lost. A body with regularization whose strains do not change keeps its internal energy exactly.", "quantifier": "all domains, parameters, histories, steps, test functions and solvers that are optimal on the thermal problems; steps of simulations: of simulations without a failed solve", "why_tests_cant": "A conservation law for every step of every history and every admissible test function.", "anchors": ["src/tvemoves_rufbad/thermal_step.py", "src/tvemoves_rufbad/simulation.py: Simulation.run", "src/tvemoves_rufbad/helpers.py: internal_energy, dissipation_rate, strain_derivative_coupling_potential, heat_conductivity_reference"]}
{"id": "C99", "title": "When an undeformed body transforms", "statement": "Let a recorded deformation be undeformed and let no traction act. If for every recorded temperature three times the austenite fraction plus twice fps is at least 1, the next recorded deformation is undeformed too, whatever solver is used, as long as it does not increase the objective. Conversely, if at some temperature that no recorded temperature exceeds three times the austenite fraction plus twice fps is less than 1, the deformation is the initial one, the rows or the columns of the body can slide (only the lower and upper or only the left and right side are fixed and there are two cells between them; with regularization nothing is fixed), and the solver answers optimally, then the body leaves the undeformed state: the elastic energy after the step plus the energy dissipated (plus the weighted hyper elastic energy) is strictly less than before. So the criterion is sharp, and it couples temperature and time step. Under the conditions for staying, and if the solver respects the constraints, the answer that repeats the deformation is an optimal solution of the next mechanical problem, also with regularization.", "quantifier": "all domains, parameters, histories, steps, temperature fields, and solvers that decrease (or are optimal on) the mechanical problem; steps of simulations: of simulations without a failed solve", "why_tests_cant": "A sharp threshold for every grid, temperature field and history, against all competing deformations.", "anchors": ["src/tvemoves_rufbad/helpers.py: total_elastic_potential, austenite_percentage, dissipation_potential", "src/tvemoves_rufbad/mechanical_step.py", "src/tvemoves_rufbad/simulation.py: Simulation.run"]}
{"id": "C100", "title": "Operators applied to arbitrary operands", "statement": "Which combinations of numbers, vectors, matrices and 3-d tensors the operators +, -, *, /, @ accept, and what they return or raise. Sums and differences work exactly for two values of the same kind and shape, entry by entry; otherwise they raise TypeError (number on the left), AttributeError (number on the right, or vector with something else) or ValueError; nothing is broadcast. Vectors and matrices can be scaled from both sides and divided by nonzero numbers; a number divided by a tensor, anything divided by a tensor, and scaled 3-d tensors raise TypeError. A @ B is the matrix product of matrices that fit and raises otherwise (IndexError for a fitting vector). The product a * b of two vectors or matrices raises nothing and is neither an entrywise nor a scalar product: every entry of a is replaced by b times this entry. Such nested values never turn into numbers: normsqr, dot and @ only return if all entries used are numbers.", "quantifier": "all pairs of operands of the four kinds, all sizes and entries; the last claim for arbitrarily nested entries", "why_tests_cant": "All combinations of classes, sizes and entries, including values nested to any depth.", "anchors": ["src/tvemoves_rufbad/tensors.py: Vector, Matrix, Tensor3D, __add__, __sub__, __mul__, __rmul__, __truediv__, __rtruediv__, __matmul__, __neg__, normsqr, dot"]}
{"id": "C101", "title": "Units of length and symmetries of the rectangle", "statement": "Without regularization a simulation does not depend on the unit of length of the mechanics, nor on how the rectangle is placed: multiplying width, height, scale and search radius by the same positive factor, turning the rectangle by half a turn, and exchanging the axes (with the fixed sides moved along) yield a grid that is the image of the original grid (vertices, triangles, boundary, Neumann and Dirichlet parts). For image grids the initial states are images of each other; the elastic energy and the dissipation of image states are multiplied by the square of the factor; the objective of the mechanical step too, up to a constant that does not depend on the state (and vanishes if the origin stays in place), if the traction is moved along and the search radius scaled; so the images of optimal deformations are optimal in the other simulation. For half turns and the exchange of axes, where lengths are kept, the objective of the thermal step agrees exactly, and optimal temperatures agree if the strains are moderate (so that the temperature is unique).", "quantifier": "all simulations without regularization, all factors, sizes, fixed sides, boundary data and states; steps of simulations: of simulations without a failed solve", "why_tests_cant": "All sizes, grids, states and factors; the optimality claims compare with every admissible competitor.", "anchors": ["src/tvemoves_rufbad/domain.py: RectangleDomain.grid", "src/tvemoves_rufbad/simulation.py: Simulation", "src/tvemoves_rufbad/mechanical_step.py: _model, MechanicalStep", "src/tvemoves_rufbad/thermal_step.py: _model, ThermalStep", "src/tvemoves_rufbad/integrators.py: Integrator, BoundaryIntegrator"]}
{"id": "C102", "title": "Approximation by Bell interpolation", "statement": "Interpolating a smooth function by C1Interpolation with its values, gradients and Hessians at the vertices approximates it together with its first and second derivatives: if the parameters at the corners of a triangle differ from those of a quartic polynomial by at most e0, e1, e2 (values, first, second derivatives), then on the whole triangle the interpolation, its gradient and its Hessian differ from those of the quartic by a constant times e0 + 6/5 s e1 + 7/15 s^2 e2, divided by 1, s, s^2; for a function with continuous derivatives of order N in {2,3,4} the errors are of order s^N, s^(N-1), s^(N-2) times the variation of these derivatives over a cell; with fifth derivatives bounded by M they are at most 192 M s^5, 1920 M s^4 and 13440 M s^3; and for every twice continuously differentiable function the interpolations on the grids of a rectangle converge uniformly with gradient and Hessian.", "quantifier": "all grids of the library, all triangles and points in them, all functions of the given smoothness, all parameters", "why_tests_cant": "All functions, points and mesh sizes: an error bound uniform over the triangle.", "anchors": ["src/tvemoves_rufbad/interpolation.py: C1Interpolation", "src/tvemoves_rufbad/bell_finite_element.py: bell_interpolation, bell_interpolation_gradient, bell_interpolation_hessian"]}
{"id": "C103", "title": "Consistency of the objectives of regularized simulations", "statement": "With regularization, the energies that enter the mechanical objective approximate the integrals they stand for: if the unknowns hold the values, gradients and second derivatives of a twice continuously differentiable deformation at the vertices, and its second derivatives vary by at most w over a cell of side s, then on the whole refined grid the deformation is accurate up to 24 s^2 w, the strain up to 240 s w and the hyperstrain up to 1680 w; the hyperelastic energy, the dissipation and the elastic energy differ from the integrals of the hyperelastic potential of the second derivatives, of the dissipation potential of the gradients and of the total elastic potential of gradient and temperature over the rectangle of the grid by at most the area times an explicit bound in terms of w, of bounds for the derivatives, of the variation of the integrand over a cell of the refined grid and of 1e-14 (the weights of Dunavant's rule are rounded); and the objective is accurate accordingly. The objective of the thermal step is accurate in the same way: it differs from the integral of diffusion minus heat production times temperature plus fps times the integral of the thermal dissipation (without any exchange with the environment) by at most the area times the change of the integrands under the errors of strains, temperatures and temperature gradients, plus their variation over a cell of the refined grid, plus 1e-14 times their largest value. As the scale of the grids of a domain tends to zero, uniformly in the refinement factor, both objectives tend to these integrals over the rectangle of the domain, times the sum of the weights of the rule (which lies between 1 - 1e-14 and 1), as long as the cells stay wide enough for refine to work.", "quantifier": "all grids of the library with cells of side at least 1e-15 after refinement, all refinement factors, all twice continuously differentiable deformations, all temperatures", "why_tests_cant": "All deformations, grids and refinement factors; tests can only compare sample values.", "anchors": ["src/tvemoves_rufbad/mechanical_step.py: _model_regularized", "src/tvemoves_rufbad/thermal_step.py: _model_regularized", "src/tvemoves_rufbad/interpolation.py: C1Interpolation, RefinedInterpolation, Deformation", "src/tvemoves_rufbad/integrators.py: Integrator", "src/tvemoves_rufbad/quadrature_rules.py: DUNAVANT5"]}
{"id": "C104", "title": "Bell interpolation is the Bell element, independent of corner order and coordinate system", "statement": "On every nondegenerate triangle and for all 18 nodal values there is exactly one polynomial of degree at most five with these values, first and second derivatives at the corners whose normal derivative along every edge has degree at most three, and bell_interpolation, its gradient and its Hessian are the value and derivatives of this polynomial. Hence listing the corners in another order (with weights and parameters) changes no result, and moving, turning, reflecting or magnifying the triangle, with nodal values transformed by the chain rule, transforms the results by the chain rule.", "quantifier": "all nondegenerate triangles, all 18 parameters, all points, all orders of the corners, all similarities of the plane", "why_tests_cant": "All triangles, parameters and points, and all competing polynomials.", "anchors": ["src/tvemoves_rufbad/bell_finite_element.py: bell_interpolation, bell_interpolation_gradient, bell_interpolation_hessian"]}
{"id": "C105", "title": "Regularized simulations do not depend on the unit of length or on a half turn", "statement": "Two regularized simulations whose rectangles and scales differ by the factor κ (same refinement factor), or that differ by half a turn of the rectangle (opposite sides fixed), have corresponding grids and refined grids and corresponding initial states. The elastic energy and the dissipation of corresponding deformations are multiplied by κ², the hyperelastic energy is divided by |κ|; hence the mechanical objective is multiplied by κ² if the regularization parameter is multiplied by |κ|³. Under a half turn the thermal objectives agree, optimal deformations have images that are optimal as well, and optimal temperatures correspond.", "quantifier": "all rectangles, scales, refinement factors, factors κ, corresponding recorded steps and deformations, all solvers that answer optimally; steps of simulations: of simulations without a failed solve", "why_tests_cant": "All grids, deformations, temperatures, magnifications and solver answers; a test compares two runs of one problem.", "anchors": ["src/tvemoves_rufbad/mechanical_step.py: RegularizedMechanicalStep", "src/tvemoves_rufbad/thermal_step.py", "src/tvemoves_rufbad/bell_finite_element.py", "src/tvemoves_rufbad/interpolation.py: RefinedInterpolation", "src/tvemoves_rufbad/domain.py: RectangleDomain.refine", "src/tvemoves_rufbad/simulation.py"]}
{"id": "C106", "title": "Attempts repeated after failures", "statement": "If the solver loads nothing when a thermal solve fails (pyomo raises before it loads values), then a simulation survives failed calls of run, however many there are and wherever they occur: (a) every recorded step starts from the temperatures of the previously recorded step; (b) if successful solves do not increase the objective, the energy of a later step (elastic energy minus work of the traction, or elastic plus hyperelastic energy) at the temperature of the earlier one plus fps times the dissipation along the attempted deformations in between is at most the energy of the earlier step; (c) as soon as the solver succeeds again on problems with a feasible starting point, run(n) records n further steps.", "quantifier": "all domains, parameters, boundary data, solvers with the stated contracts, histories of calls of run including failing ones, and all recorded steps", "why_tests_cant": "Any number of failures at any solver call of any history; a test provokes one failure.", "anchors": ["src/tvemoves_rufbad/simulation.py: Simulation.run, _update_mechanical_step, _update_thermal_step", "src/tvemoves_rufbad/mechanical_step.py: solve, set_prev_y, set_prev_theta", "src/tvemoves_rufbad/thermal_step.py: solve, set_y, set_prev_theta"]}
{"id": "C107", "title": "Simulations on fine grids compete with every smooth deformation", "statement": "The mechanical step minimizes, up to discretization error, the energy the documentation talks about. Let Y be any continuously differentiable deformation of the rectangle with gradient of positive determinant that leaves the fixed vertices where they are and is nowhere further away from the deformation before than the search radius. For every eps there is a scale below which every simulation whose (first) deformation is an optimal answer of the solver records a deformation whose objective is at most eps above elastic energy minus work of the traction over the free sides plus fps times dissipation of Y, as integrals over the rectangle and its sides. With regularization the same holds for every twice continuously differentiable Y that is the identity along the fixed edges and whose values and derivatives up to order two stay within the search radius; the functional is elastic energy plus regularization times hyperelastic energy plus fps times dissipation, times the sum of the weights of Dunavant's rule (1 up to 1e-14).", "quantifier": "all domains, parameters, tractions continuous on the rectangle, smooth competitors, tolerances, all scales below a threshold, all solvers, external temperatures and simulations at these scales", "why_tests_cant": "A statement about all deformations of an infinite dimensional space and about a limit; a test compares a few deformations on one grid.", "anchors": ["src/tvemoves_rufbad/mechanical_step.py: mechanical_step, _create_p1_model, _create_bell_model, solve", "src/tvemoves_rufbad/simulation.py: Simulation.__init__, run", "src/tvemoves_rufbad/bell_finite_element.py: bell_interpolation_on_edge"]}
{"id": "C108", "title": "Quadrature in double precision", "statement": "Rounding does not break quadrature. The constructor of TriangleQuadratureRule, evaluated in double precision, accepts every rule with points in the unit triangle whose weights sum to one up to 0.99e-9 and rejects with ValueError every rule with a point outside (by more than one rounding error) or weights whose sum is off by 1.01e-9 or more; the points of accepted rules are barycentric coordinates in [0, 1] that sum to one up to rounding. Importing the module never raises: all built-in rules are accepted, have nonnegative coordinates, and with rounded weights and points still integrate polynomials of their degree up to 6e-17 (CENTROID, VERTEX, DUNAVANT2, DUNAVANT3) or 6e-16 (DUNAVANT4, DUNAVANT5) times the sum of the absolute values of the coefficients. The integral over triangles computed in double precision differs from the exact weighted sum by a small multiple of 2^-51 times the sum of the absolute values of the terms. Likewise on edges: GaussQuadratureRule halves the weights of leggauss exactly and transports its points to [0, 1] with an error of at most 2^-53, so a leggauss that integrates polynomials of degree d over [-1, 1] up to a relative error gives a rule that does so over [0, 1] up to half of it plus d rounding errors; the lengths of edges have a relative error of at most 7 * 2^-52, integrals over edges differ from the exact weighted sum by a small multiple of 2^-51 times the sum of the absolute values of the terms, and integrating 1 returns the total length up to a small relative error.", "quantifier": "all weights and points, all polynomials of the given degree, all areas, triangles and integrands, every summation accurate to n rounding errors (covering the versions of Python's sum)", "why_tests_cant": "Ranges over all rules, polynomials and integrands, with worst case rounding; tests check single values with a tolerance.", "anchors": ["src/tvemoves_rufbad/quadrature_rules.py: TriangleQuadratureRule, CENTROID, VERTEX, DUNAVANT2, DUNAVANT3, DUNAVANT4, DUNAVANT5", "src/tvemoves_rufbad/integrators.py: Integrator", "src/tvemoves_rufbad/tensors.py: BarycentricCoordinates.__init__", "src/tvemoves_rufbad/quadrature_rules.py: GaussQuadratureRule", "src/tvemoves_rufbad/integrators.py: BoundaryIntegrator"]}
{"id": "C109", "title": "Tensor arithmetic in double precision", "statement": "Rounding to double precision is to nearest, monotone and odd, so that the entries of sums, differences, multiples and quotients of vectors, matrices and 3-d tensors are the doubles nearest to the exact entries, and the same operands raise as in exact arithmetic. Scalar products, matrix-vector and matrix products, traces and squared norms of size n have an error of at most about n 2^-52 times the same expression with absolute values; norms have a relative error of that size. Determinants up to 17 rows have a small error relative to the product of the absolute row sums; for 2x2 matrices the computed sign is never wrong. Inverses of 2x2 matrices are computed with a small relative error in every entry as long as the determinant is not tiny compared to its two products; matrices whose determinant rounds to zero raise ZeroDivisionError, even some invertible ones.", "quantifier": "all sizes (up to 2^52 terms), all entries, every summation accurate to n rounding errors (covering the versions of Python's sum), every accurate squaring", "why_tests_cant": "Worst case rounding over all doubles and sizes; tests check single values.", "anchors": ["src/tvemoves_rufbad/tensors.py: Vector, Matrix, Tensor3D, inverse_2x2"]}
{"id": "C110", "title": "Piecewise affine interpolation in double precision", "statement": "Evaluated in double arithmetic, a piecewise affine interpolation (in triangles, on edges, and on the boundary) agrees with the exact affine function up to 2^-51 times the size of the values, is exact at the vertices, and is nonnegative where the data are (temperatures). Its gradient is computed in every triangle whose area is not tiny compared with the square M^2 of its largest coordinate, with a relative error of M^2 / (2^46 area) plus one rounding error of the values; on the grid of a rectangle with at most K <= 10^6 cells of size s per direction each component is within (K^2 |g| + U/s) / 2^45 of the exact gradient g on the exact grid. In particular the strain of the undeformed body is the identity up to K^2 / 2^44, and gradients of constant functions are exactly zero. The dependence on the position is real: 10^8 away from the origin a unit triangle raises ZeroDivisionError or has gradients of the wrong sign.", "quantifier": "all grids of rectangles, all triangles, edges, barycentric coordinates, edge parameters and nodal values, every summation accurate to n rounding errors (for constants: in which opposite neighbours cancel)", "why_tests_cant": "Worst case rounding over all values, positions and grid sizes; tests compare a few values with approx on unit squares.", "anchors": ["src/tvemoves_rufbad/interpolation.py: P1BoundaryInterpolation, P1Interpolation, Deformation", "src/tvemoves_rufbad/bell_finite_element.py: transform_gradient, _get_a, _get_b, _get_c"]}
{"id": "C111", "title": "The laws of motion and heat hold after failures", "statement": "In every simulation, also if calls of run have failed, every recorded step after the first records the answers to a mechanical problem and the thermal problem that follows it, whose previous deformation is that of the step before or the answer to a mechanical problem of a failed attempt. Relative to this deformation all laws hold as without failures: both objectives are those of the specification at time k / fps; an optimal deformation is in equilibrium, and without fixed sides the total traction vanishes; optimal temperatures satisfy the variational inequality and the weak balance of heat, the internal energy changes by the heat produced minus the heat lost, and for moderate strains the temperatures are unique. Heat produced by the motion in failed attempts is not accounted for.", "quantifier": "all simulations with all sequences of calls of run, whether or not they failed, all solvers, all consecutive recorded steps, all test functions and virtual displacements", "why_tests_cant": "Failures can occur in every call of the solver or in the callbacks, any number of times, and the laws quantify over all directions.", "anchors": ["src/tvemoves_rufbad/simulation.py: Simulation.run, _run_single_step, _update_mechanical_step, _update_thermal_step", "src/tvemoves_rufbad/mechanical_step.py", "src/tvemoves_rufbad/thermal_step.py"]}
{"id": "C112", "title": "Bodies at rest stay at rest, and cold bodies transform, also after failures", "statement": "However often calls of run have failed: from a recorded step with strain 1 and no hyper elastic energy, without traction and with three times the austenite fraction plus twice the number of steps per time at least one, the next recorded step has strain 1 and no hyper elastic energy too. A simulation that starts at or above the transition temperature, without traction and with the external temperature equal to the initial one, records only steps with strain 1 and the initial temperature. If a recorded deformation is the initial one, rows or columns of the body can slide, there is no traction and three times the austenite fraction plus twice the number of steps per time is less than one, then the motion to the next recorded step gains more elastic energy than it dissipates and its strain is no longer 1.", "quantifier": "all simulations with all sequences of calls of run, whether or not they failed, all solvers that do not increase objectives (and, for the transformation, answer mechanical problems optimally or fail), all recorded steps", "why_tests_cant": "Failures can occur in every call of the solver or in the callbacks, any number of times, after which the deformation of a failed attempt is kept; a test sees one such history.", "anchors": ["src/tvemoves_rufbad/simulation.py: Simulation.run, _run_single_step, _update_mechanical_step, _update_thermal_step", "src/tvemoves_rufbad/mechanical_step.py", "src/tvemoves_rufbad/thermal_step.py", "src/tvemoves_rufbad/tensors.py", "src/tvemoves_rufbad/helpers.py: austenite_percentage"]}
{"id": "C113", "title": "Threshold between bodies that never move and bodies that transform", "statement": "In a simulation without traction whose external temperature equals the initial one (with the default arguments: initial temperature 0), a body whose rows or columns can slide is never deformed exactly if three times the austenite fraction at the initial temperature plus twice the number of steps per time is at least one; otherwise the first step already deforms it. With at least half a step per time and no traction no body is ever deformed, whatever the temperatures are. In particular the usage example of the README, run as written, records 30 times the undeformed square at temperature zero.", "quantifier": "all simulations with all sequences of calls of run, whether or not they failed, all solvers that keep to the constraints and do not increase objectives (for the transformation: that answer mechanical problems optimally or fail), all domains, scales and parameters", "why_tests_cant": "The threshold is sharp in real parameters and holds for all numbers of steps, meshes and solvers.", "anchors": ["README.md", "src/tvemoves_rufbad/simulation.py: Simulation.__init__, run, SimulationParams", "src/tvemoves_rufbad/mechanical_step.py", "src/tvemoves_rufbad/thermal_step.py", "src/tvemoves_rufbad/helpers.py: austenite_percentage, dissipation_potential"]}
{"id": "C114", "title": "Boundary tractions set bodies in motion", "statement": "Without regularization, if at the time of a step the boundary is pulled in some direction (the traction has a nonnegative component in this direction at all Neumann vertices and a positive one at some boundary vertex that is not fixed), an undeformed body does not stay where it is: if the mechanical problem is answered optimally some vertex moves, a partly fixed body is deformed, and a free body is deformed or moved by the search radius. More generally an undeformed body stays undeformed only if the work of the traction vanishes for all displacements of free coordinates. In particular the body of example.ipynb is deformed by the first step (for both choices of fps and scale), and without its traction it would never be deformed.", "quantifier": "all simulations without regularization, all steps from undeformed bodies, all optimal answers, all tractions, directions, domains and parameters", "why_tests_cant": "The claim is about all optimal answers for all tractions and meshes; tests run one solver on one traction.", "anchors": ["example.ipynb", "src/tvemoves_rufbad/mechanical_step.py", "src/tvemoves_rufbad/simulation.py: Simulation.__init__, run", "src/tvemoves_rufbad/integrators.py: BoundaryIntegrator", "src/tvemoves_rufbad/helpers.py: total_elastic_potential, dissipation_potential"]}
{"id": "C115", "title": "The surroundings heat and cool bodies", "statement": "Without regularization, a step in which the body does not move raises the temperature somewhere if all temperatures were below the external temperature at the time of the step, and lowers it somewhere if all were above a nonnegative external temperature; a body of uniform temperature keeps it exactly if it is the external one. In particular this holds for all steps of bodies without boundary traction simulated with at least half a step per unit of time (such bodies do not move), and the first step of such a simulation leaves the temperatures unchanged exactly if the initial temperature is the external one at time zero. With regularization there is no exchange of heat: in a step in which the body does not move not all temperatures rise, and not all fall.", "quantifier": "all accepted parameter sets (heating and cooling: without regularization), domains, external temperatures, simulations without failures, steps in which the strain does not change and is moderate, and solvers that answer the thermal problem optimally", "why_tests_cant": "a test looks at one mesh, one temperature and one step; the sign of the exchanged heat and the monotonicity of the internal energy must hold for every temperature field and every mesh", "anchors": ["src/tvemoves_rufbad/thermal_step.py: _model, solve", "src/tvemoves_rufbad/simulation.py: Simulation.run", "src/tvemoves_rufbad/helpers.py: internal_energy_no_entropy, HEAT_TRANSFER_COEFFICIENT"]}
{"id": "C116", "title": "Moves are bounded also after failures", "statement": "Whether or not calls of run have failed, between two recorded steps no component of the deformation changes by more than the search radius times the number of mechanical problems posed to the solver in between, and (if failing thermal solves load nothing) no temperature changes by more than the search radius times the number of recorded steps in between; no recorded deformation is farther from the initial one than the search radius times the number of mechanical problems posed altogether.", "quantifier": "all domains, accepted parameters, boundary data, solvers that keep the bounds of variables, histories of calls of run including failing ones, and pairs of recorded steps", "why_tests_cant": "the bound has to hold for every pattern of failures and for arbitrarily long histories; a test exercises one", "anchors": ["src/tvemoves_rufbad/simulation.py: Simulation.run, _run_single_step", "src/tvemoves_rufbad/mechanical_step.py: update_prev_y", "src/tvemoves_rufbad/thermal_step.py: update_prev_theta"]}
{"id": "C117", "title": "Search ranges in double precision", "statement": "The bounds x - radius and x + radius of a variable, computed in double precision, always contain the state x the step starts from; a number within them is at most radius + (|x| + radius) / 2^53 away from x (not always at most radius), exactly radius if both bounds are doubles, and after k steps the component is at most k (1 + k / 2^53) (radius + (|x0| + radius) / 2^53) away from its start. A component can move if the radius is at least |x| / 2^52; if the radius is less than |x| / 2^54 its range is a single point and it is frozen. Temperatures stay nonnegative in addition.", "quantifier": "all doubles x, all radii, all numbers of steps up to 2^53, all solvers that keep bounds", "why_tests_cant": "rounding depends on every single number and accumulates over arbitrarily many steps", "anchors": ["src/tvemoves_rufbad/mechanical_step.py: _model, _MechanicalStep.update_prev_y, _model_regularized, _RegularizedMechanicalStep.update_prev_y", "src/tvemoves_rufbad/thermal_step.py: _model, _ThermalStep.update_prev_theta, _model_regularized, _RegularizedThermalStep.update_prev_theta"]}
