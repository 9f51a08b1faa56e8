{
 "C02": {
  "note": "Vector, Matrix and BarycentricCoordinates proved in full; the Tensor3D part is false of the code (negative second/third index wraps), negation and partial theorem given."
 },
 "C08": {
  "note": "The sum-preservation part of assert_bounds is false of the code: negation, a quantitative partial theorem, and the exact condition (C08_sum_kept_iff: the sum stays 1 exactly when no coordinate is negative or at most one is positive; otherwise it grows, to at most 2)."
 },
 "C15": {
  "note": "False of the code: a vertex strictly inside a fixed side is listed as a Neumann vertex (negation proved); exact characterisation of the list and the true inclusion proved."
 },
 "C16": {
  "note": "The tolerance is the absolute 1e-10 of _sign, so the guaranteed lower bound on the coordinates is proportional to 1e-10/scale^2."
 },
 "C22": {
  "note": "For cells of side at least 1e-15, the absolute tolerance used by refine."
 },
 "C23": {
  "note": "False of the code for every rectangle with a fixed side and n >= 2 (Neumann vertex lists differ); exact criterion for == proved, and everything except the Neumann vertex list proved equal."
 },
 "C24": {
  "note": "Proved for the stored rotation; for the other two rotations the code does not permute the coordinates and returns another point (negation proved)."
 },
 "C25": {
  "note": "Proved for horizontal and vertical edges (in particular all boundary edges); fine diagonal edges on coarse diagonals are stored with the opposite orientation and raise (negation proved)."
 },
 "C49": {
  "note": "'and nowhere else' is false: the exact zero set is characterised; nonnegativity, zeros and frame indifference proved."
 },
 "C44": {
  "note": "Proved for grids whose cells are not tiny (absolute tolerance 1e-10); negations for points outside the rectangle of the coarse grid and for tiny scales. C44_accuracy bounds the effect of the tolerance near edges: P1 interpolations evaluate to the piecewise linear function up to 36e-10\u00b7M/s\u00b2 at every point of the rectangle covered by the grid."
 },
 "C43": {
  "note": "For the triangles listed by the refined grid. Rotated triples are accepted by the code as well but evaluated at a wrong point: see C24_rotated_false."
 },
 "C55": {
  "note": "Accepted parameters give a simulation that can be created and run, except fps = 0, which the validation accepts and which raises ZeroDivisionError (negation proved)."
 },
 "C62": {
  "note": "Exact for simulations without regularization; with regularization the axis limits cover derivative values instead of positions (negation proved)."
 },
 "C63": {
  "note": "The solver contract 'does not increase the objective' is a hypothesis; the energy is the discrete integral of the specification."
 },
 "C65": {
  "note": "True without regularization; with regularization traction and external temperature are never used (negation proved)."
 },
 "C68": {
  "note": "Initial step and state of a new simulation."
 },
 "C69": {
  "note": "The weak heat balance holds with the conduction term counted twice; the negation of the intended balance and the balance that does hold are proved."
 },
 "C71": {
  "note": "True after mechanical failures; after a thermal failure the next run starts from the failed step's deformation (negation proved), and negative temperatures block the simulation for good. After a thermal failure the next recorded step can exceed the search radius (C71_search_radius)."
 },
 "C72": {
  "note": "Proved for scales that are not tiny (absolute tolerance 1e-10 of point location); negation for scale 1e-6. Between the vertices: C72_temperature_accuracy and C72_deformation_accuracy (any scale, error 36e-10\u00b7M/h\u00b2)."
 },
 "C73": {
  "note": "For solvers that do not increase the objective."
 },
 "C74": {
  "note": "Matplotlib calls are data: what is passed to the axes is modelled, not the drawing. The deformed curves are those of the full rectangle, not of the grid (negation proved). With regularization the axis limits are computed from all entries of the recorded array (positions and derivatives at the vertices) and need not contain the plotted points (C74_limits_false); the colours do lie in the colour range (C74_colours_partial: scale above the absolute tolerance of the point location)."
 },
 "C75": {
  "note": "Matplotlib calls are data. grid.plot() without an axes argument raises TypeError (negation proved)."
 },
 "C76": {
  "note": "Entries compared as exact numbers (nan and pyomo expressions not modelled)."
 },
 "C77": {
  "note": "repr of BarycentricCoordinates lists three weights although the constructor takes two, so it cannot be evaluated back; only unambiguity is claimed."
 },
 "C80": {
  "note": "The mechanical objective without regularization contains the work of the boundary traction, which is not invariant; its energy and dissipation parts are."
 },
 "C78": {
  "note": "The objective as a function of the variables is continuous where the deformation preserves the orientation at the quadrature points and coercive there (martensite part), the admissible set is compact."
 },
 "C79": {
  "note": "False in double arithmetic: 0.3 / 0.1 gives two cells, and the triangle with corner heights 4, 4, 5 refined by 5 is not aligned up to 1e-15, so a second refinement raises (both negations proved with round-to-nearest-even arithmetic). Proved: the cell count up to rounding, the general error bound 13*2^-53*M of fine vertices, and alignment for coordinates up to 1/3. Also proved: grids with dyadic mesh size and their refinements by powers of two are free of rounding errors (C79_dyadic_grid, C79_dyadic_refine). The whole program raises: RectangleDomain(10, 10, fix=\"lower\").grid(10).refine(3) cannot be refined again (C79_program_second_refinement_false); in doubles refine raises on every grid with a triangle misaligned by 1e-15 or more (C79_tolerance_doubles)."
 },
 "C81": {
  "note": "Vertices, edges, triangles and all boundary tags, including the Neumann vertices that make C23 fail."
 },
 "C20": {
  "note": "Sound and complete for well separated vertices; an equivalence relation on grids of one mesh size. For slightly different mesh sizes it is neither symmetric nor transitive (counterexamples proved): the tolerance is relative to the mean edge length of the left operand."
 },
 "C82": {
  "note": "Over the real numbers: with floats, sums over boundary edges in another order may differ in the last digits. The hypothesis on the solver is met by every choice among optimal solutions (C82_optimal_solver)."
 },
 "C83": {
  "note": "Lists are objects in a heap; boundary objects, dictionaries of a refined grid and points (immutable as used) are values."
 },
 "C84": {
  "note": "Hypotheses: real arithmetic, nonnegative Gauss weights for the boundary integrals, recorded deformation of moderate strain (ModerateStrain)."
 },
 "C85": {
  "note": "Partial because the code violates the property for large rectangles (C85_large_false): the tolerance 1e-10 is absolute. The model is the double precision version Model/FloatLocate of the point location (rounding to nearest, no overflow and underflow)."
 },
 "C86": {
  "note": "Assignment to the attributes is Sim.assign in Spec/Attributes.lean."
 },
 "C87": {
  "note": "Arithmetic: round to nearest with 53 bits, no overflow or underflow (Model/Float64); the float program is Model/FloatRefine. Square roots are modelled as correctly rounded."
 },
 "C88": {
  "note": "Arrays as in C56."
 },
 "C89": {
  "note": "Python's slicing of lists is modelled as documented for slice.indices."
 },
 "C90": {
  "note": "Tensors, their lists and the in-place changes of lists are objects in a heap; the operations on values are those of C01-C07."
 },
 "C91": {
  "note": "Violated as stated for exact times: C91_nominal_false; exact for powers of two, error bound and monotonicity in general."
 },
 "C92": {
  "note": "Derivative of the objective along every line, first order conditions at optimal answers, resultant of the traction for free bodies; examples: a clamped square whose centre vertex is in equilibrium, a free square pulled to the right."
 },
 "C93": {
  "note": "Triangles tile the rectangle up to null sets, so integrals add up; error bounds by the variation over a cell; boundary edges sorted by sides. Example: the integral of x^2 y and continuous integrands on grids of a domain whose width is no multiple of the scale."
 },
 "C94": {
  "note": "Mean value theorem on each right triangle. Example: x^2 y on all grids of a domain."
 },
 "C95": {
  "note": "numpy's leggauss(1) enters only through: as many points as weights, points in [-1,1], weights of sum 2 (hypothesis LegSound, satisfied by the midpoint rule). Example: a non-affine stretch with non-constant temperature, both objectives."
 },
 "C96": {
  "note": "The two wells in terms of s = |F|^2/det F - 2 and det F; the sum wA + 2 (wM - 1/16) is a sum of squares plus J - 1 - log J. Example: a temperature on each side."
 },
 "C97": {
  "note": "Energy decrease (C63), global minimum (C96) at each quadrature point, dissipation vanishes only for infinitesimal rotations (C51); heat balance (C69) and its strict monotonicity (C84). Example: six steps of an optimal solver with and without regularization."
 },
 "C98": {
  "note": "Optimality along admissible directions gives the sign of the derivative computed for C69; the test function 1 kills conduction; telescoping over the run. Example: a free square stretched by 10 % heats up."
 },
 "C99": {
  "note": "The energy gain over the undeformed state is written as a nonnegative combination of squares if 3*alpha + 2*fps >= 1; otherwise parabolic sliding of rows or columns is an admissible competitor with strictly smaller objective. Examples for both cases."
 },
 "C100": {
  "note": "Model of Python's operator dispatch on an inductive type of values with arbitrary entries; the table for tensors of numbers is proved for all sizes, the absence of wrong numbers for all nested values."
 },
 "C101": {
  "note": "Without regularization only (with regularization the coefficient and the derivative unknowns would have to be scaled, too). Mirror images at a single axis are not symmetries, because all cells are cut along the same diagonal. Conduction and boundary heat scale differently from the bulk terms, so the thermal claims are for factors of absolute value 1. Integrals over edges: the midpoint rule, i.e. numpy's leggauss(1) = ([0], [2]), is a hypothesis. The material is isotropic: the claims rest on energy densities depending on |F|^2 and det F only."
 },
 "C102": {
  "note": "Real arithmetic. The constants are not optimal."
 },
 "C103": {
  "note": "Real arithmetic. The bounds are explicit, because cells cannot be refined below the absolute tolerance 1e-15 and the weights of the rule do not add up exactly to one; the limits (C103_mechanical_limit, C103_thermal_limit) speak about grids above that tolerance only, so for tiny errors the admissible scales can be empty. For the elastic and thermal integrands the modulus of continuity along strain, temperature and gradient is a hypothesis (kappa) of the explicit bounds, and is derived from compactness in the limits."
 },
 "C104": {
  "note": "Real arithmetic. Proved by unisolvence of the element on the reference triangle (21 coefficients) and the closed form of the shape functions."
 },
 "C105": {
  "note": "Real arithmetic. The search radius bounds values, first and second derivatives alike, so optimal steps of magnified simulations need not correspond; this part is proved for half turns (|\u03ba| = 1) only, as is the claim about temperatures, whose Laplacian scales differently from the other terms. Exchange of axes is excluded: the points of the DUNAVANT5 rule are not exactly symmetric."
 },
 "C58": {
  "note": "C58_always holds after failed calls too; C58_step and C58_steps (consecutive recorded steps) need that no solve failed, see C71_search_radius for what happens otherwise."
 },
 "C106": {
  "note": "Real arithmetic. That a failing thermal solve loads nothing is a hypothesis about pyomo and ipopt (Solver.KeepsTemperature); C71 shows what happens without it. The dissipation is that of the chain of attempts, each measured from the deformation the attempt started at."
 },
 "C107": {
  "note": "Real arithmetic. C107_step and C107_step_regularized speak about any step whose predecessor holds the nodal values of a smooth state (uniformly in the scale); for the first step, which starts from the undeformed body at the initial temperature, this is proved (C107_first, C107_first_regularized). It is an upper bound: that no discrete deformation is much better than all smooth ones is not claimed, and is not expected to hold, since the energy is not quasiconvex. That the answer is optimal is a hypothesis about the solver. With regularization the scale must stay above the tolerance of refine, so for tiny eps the admissible scales can be empty."
 },
 "C34": {
  "note": "C34_continuity: Lipschitz continuity across triangles."
 },
 "C108": {
  "note": "Doubles with unbounded exponents as in C79. One part is false of the code: since the check x + y > 1 rounds, the third coordinate of a point of an accepted rule can be -2^-53 (C108_negative_coordinate_false); proved instead: at least -2^-51, and nonnegative for the built-in rules. The contract on sum is proved for left-to-right addition (Python 3.11); that the compensated summation of Python 3.12 is at least as accurate is not proved."
 },
 "C109": {
  "note": "Doubles with unbounded exponents as in C79 (no overflow or underflow); the entries of the theorems are the numbers denoted by the doubles. That some invertible matrices of doubles have no computed inverse (C109_rounded_singular) and that addition is not associative (C109_not_associative) limits C05 and C01, which are about exact arithmetic."
 },
 "C110": {
  "note": "Doubles with unbounded exponents as in C79 (no overflow or underflow). The C1 (Bell) interpolation is not covered: its shape functions are evaluated by sympy's lambdify, whose order of operations is not part of this repository. C110_far_triangle shows that the condition on the area cannot be dropped: the area is computed from absolute coordinates, so the error grows with the square of the number of cells."
 },
 "C111": {
  "note": "Extends C63, C69, C84, C92 and C98 from simulations without failures (Healthy) to all (Reachable); the proofs are those of the latter for the problems found by an induction over the history (Sim.Reachable.attempts). The conductivity in the balance of heat is twice heat_conductivity_reference, see C69."
 },
 "C112": {
  "note": "Extends C97 and C99 from simulations without failures (Healthy) to all (Reachable). By an induction over the history (Sim.Reachable.chain) what mechanical solves at the temperatures and the time of a step keep holds for the step recorded next. The hypothesis KeepsTemperature (a failing thermal solve loads nothing) is how pyomo behaves."
 },
 "C113": {
  "note": "Combines C99, C112 and C97: stay_all/stay_healthy for the condition at the initial temperature, C112_transforms for the converse. C113_readme needs no contract for failing calls. With regularization the external temperature and the traction do not act and CanSlide means that nothing is fixed."
 },
 "C114": {
  "note": "From the balance of forces C92: the elastic and the viscous stress vanish at strain 1 (stressE_one, C92_viscous_stress), so the boundary work of every admissible displacement vanishes; the displacement of one vertex in the pulling direction has positive work (pulled_work). LegMidpoint says what numpy.polynomial.legendre.leggauss(1) returns. Equality of the steps is exact (real numbers); an interior point solver would satisfy it up to its tolerance."
 },
 "C115": {
  "note": "The heat balance C98 with constant test functions; heat production vanishes at rest, the internal energy increases with the temperature (C84_heat_capacity, moderate strains), the heat loss through the boundary has a sign (IsHeatLoss.sign, midpoint rule as returned by leggauss(1): LegMidpoint). C115_cools needs 0 <= external temperature, because the temperatures are constrained to be nonnegative. Optimality of the thermal answer is a hypothesis; the example shows it is satisfiable (C78)."
 },
 "C116": {
  "note": "Extends C58 (no failures) to all reachable simulations; with failures the search radius bounds a single step no longer (C71_search_radius: two radii), the first example shows that the bound is attained there. Sim.mechanicalBetween counts the problems of class mechanical in the log of solver calls, Sim.RecordedAt ties every step to the two problems it was made from."
 },
 "C117": {
  "note": "Double precision counterpart of C58, for one component: KeepsBounds is the contract of the solver (ipopt's own relaxation of bounds is not modelled). C117_exact_radius_false: radius 3/2^54 around 1 allows a move by 4/2^54."
 }
}