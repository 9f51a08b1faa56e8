# A Lean 4 model of tvemoves

## Approach

The package computes with Python floats, sympy expressions (compiled with `lambdify`), pyomo models
and an external solver (ipopt). The model is a *shallow* transcription of the Python functions,
branch by branch:

* **Numbers.** Python floats are modelled by an ordered field `K` (theorems are about `ℝ`).
  Rounding, overflow, `inf`/`nan` are *not* modelled. Decimal literals are the exact rationals they denote.
  `1e-10`, `1e-15`, `1e7` tolerances are kept, so theorems about them state the exact-arithmetic behaviour.
* **Exceptions** are values: `Except PyErr α` with the Python exception class; every raising branch is present
  (including implicit ones: list index, dict key, division by zero).
* **Lists, tuples, dicts** are lists, products, insertion-ordered association lists. `list(set(..))` has
  unspecified order: the order is a parameter of the model over which theorems quantify.
* **Mutation** becomes state passing; loops become folds in the `Except` monad.
* **sympy**: expressions are an inductive type `Sym` with `eval` (lambdify), `diff` (sp.diff), `subs`.
  `diff`/`subs` are proved correct for all expressions, not assumed. `sp.integrate` is modelled by the interval integral.
* **numpy `leggauss`** is a parameter (theorems state the exactness they assume).
* **pyomo** variables are records (value, bounds, fixed); a model is evaluated numerically: pyomo expression
  graphs are not modelled, their value is.
* **ipopt** is an arbitrary function from models to new values; theorems that need more name the contract
  (respects fixed variables / bounds / does not increase the objective) as hypotheses.

Layout: `lean/Verif/Model/*` model, `lean/Verif/Spec/*` small specifications, `lean/Verif/Lemmas/*` helper lemmas,
`lean/Verif/Props/*` the property theorems with non-vacuity examples.

## Trusted base

* **Lean's kernel.** Every theorem depends on at most the three standard axioms `propext`, `Classical.choice`,
  `Quot.sound`; no axiom is added, nothing rests on compiled code (`decide +kernel` is evaluated by the kernel).
* **The transcription.** That `Model/*.lean` says what the Python text says; every definition cites file and lines.
* **The semantics given to libraries** (`Model/Py.lean`, `Model/PyState.lean`, `Model/Sym.lean`):
  * Python: exceptions as values, lists/dicts/tuples, iteration order of `set` unspecified (`SetIter`, quantified over).
  * floats: exact elements of an ordered field (ℝ in the theorems). No rounding, overflow, `inf`, `nan`; except in the files
    `Model/Float*.lean`, where every operation rounds to 53 bits, with unbounded exponents (C79, C85, C87, C91, C108, C109, C110).
  * numpy arrays: nested lists with a shape (`NdArray`); `leggauss` is a parameter of the model.
  * sympy: `Sym` with `diff`, `subs`, `lambdify`; automatic rewriting is assumed to preserve values, except the removal of
    zero terms, which is modelled because it is observable (see `Model/Sym.lean`). `sp.integrate` = interval integral.
  * pyomo 6.6: `Set` removes duplicates; `Param`/`Var` with `within=NonNegativeReals` raise `ValueError` when a negative value
    is assigned; bounds are not checked on assignment; assigning to a fixed variable changes its value and leaves it
    fixed; the bounds set at construction are expressions in mutable parameters (`m.prev_y1[v] - search_radius`), modelled by
    their values, which is the same because only `update_prev_y`/`update_prev_theta` change these parameters and they set
    new numeric bounds in the same pass of the loop; objectives and constraints are functions of the current components.
  * ipopt: an arbitrary function (it sees all problems posed so far, may return anything and may raise). Theorems which
    need more state it as a hypothesis (`Solver.RespectsFixed`, bounds, constraints, no increase of the objective,
    optimality); C78 shows that the strongest of these contracts can be met.
  * matplotlib: the list of calls with their data; what is drawn is not modelled.

**Modelled code** (all paths below `src/tvemoves_rufbad/`):

| model file | code |
|---|---|
| Model/Tensors, Model/TensorText | `tensors.py`, complete (TensorText: comparison, iteration, `numpy()`, `str`, `repr`) |
| Model/Operators | the operators of `tensors.py` once more, with Python's dispatch, for operands of any class and nesting (C100) |
| Model/Slices | `Vector.__getitem__` with a slice, `reshape` with any integers, `map` with a raising function |
| Model/Domain, Model/Refine | `domain.py` except plotting: grids, point location, equality, rectangle domain, refinement |
| Model/Quadrature, Model/Integrators | `quadrature_rules.py`, `integrators.py`, complete |
| Model/Sym, Model/Bell | `bell_finite_element.py`, complete, over the fragment of sympy it uses |
| Model/Interpolation | `interpolation.py`, complete (Euclidean interpolations and deformations included) |
| Model/Helpers | `helpers.py` except `compose_to_integrand` (written out in the objectives) and the two axis helpers |
| Model/Mechanical, Model/Thermal | `mechanical_step.py`, `thermal_step.py`, complete: models, constraints, objectives, updates |
| Model/Simulation | `simulation.py`: parameters, creation, steps, `run`, failures; progress bar dropped |
| Model/Float64 | three computations of `domain.py` once more, with every operation rounded to a double (C79) |
| Model/FloatLocate | point location of `domain.py` and evaluation of P1 functions once more, with every operation rounded to a double (C85) |
| Model/FloatRefine | grid creation, `append_edge`, `point_to_vertex` and refinement of `domain.py` once more, with every operation rounded to a double (C87) |
| Model/FloatTime | the time stamps of `simulation.py` once more, with every operation rounded to a double (C91) |
| Model/FloatQuadrature | the rules on triangles of `quadrature_rules.py` and `Integrator` once more, with every operation rounded to a double (C108) |
| Model/FloatInterp | `transform_gradient`, the P1 interpolations and `Deformation` of them once more, with every operation rounded to a double (C110) |
| Model/FloatTensors | the arithmetic of `tensors.py` once more, with every operation rounded to a double (C109) |
| Model/FloatIntegrators | `GaussQuadratureRule`, `BoundaryIntegrator` and the construction of `Integrator` once more, with every operation rounded to a double (C108) |
| Model/Storage | `Grid.__init__`, `append_edge`, `grid`, `refine` of `domain.py` once more, on objects in a heap (C83) |
| Model/TensorStorage | the operations of `tensors.py` that create tensors once more, on objects in a heap (C90) |
| Model/StepText | `AbstractStep.__repr__`, `__str__` |
| Model/Plot | the plotting methods of `simulation.py`, `domain.py`, `helpers.py` |

**Not modelled:** colours, line widths, aspect ratio and output files of matplotlib; tqdm; the text of numpy arrays
(a parameter of Model/StepText); the `Protocol` stubs; aliasing of Python objects
other than grids, tensors and their lists (those are in Model/Storage and Model/TensorStorage); floating point rounding outside the files `Model/Float*.lean`, overflow, `inf`, `nan`; the internals of sympy, numpy, pyomo, ipopt.

## Where the code violates a property

For these the theorem named `…_false` proves the negation and `…_partial` what remains true.

| id | violation |
|---|---|
| C02 | `Tensor3D[i, j, k]` checks `i` three times, so negative `j`, `k` wrap around (tensors.py, `__getitem__`) |
| C08 | `assert_bounds` clamps the weights one by one and does not keep their sum |
| C15, C23 | a vertex strictly inside a fixed side stays a Neumann vertex; so refined and directly gridded rectangles with a fixed side are not equal |
| C24 | for a rotated triangle `to_coarse_barycentric_point` does not rotate the coordinates |
| C25 | fine edges on coarse diagonals are stored with the other orientation, `to_coarse_edge_point` raises |
| C44, C72 | point location uses the absolute tolerance 1e-10, so scales around 1e-6 evaluate in a wrong triangle; points of the domain outside the grid raise |
| C49 | the martensite potential vanishes on all `F` with `det F = 1`, `|F|² = 9/4`, not only at the two variants |
| C55 | `fps = 0` passes the validation and raises `ZeroDivisionError` when the simulation is created |
| C62 | with regularization the plot limits are computed from derivative parameters as well |
| C65 | with regularization traction and external temperature are never used |
| C69 | conduction enters the weak heat balance with a factor 2 (the potential is `∇θ·K∇θ`, not half of it) |
| C71 | after a failed thermal step the next run starts from the deformation of the failed step; a negative temperature blocks all further runs |
| C74 | the deformed curves are those of the full rectangle, evaluated outside the grid if the scale does not divide it; with regularization, plotted points can lie outside the axis limits, which are taken from the entries of the recorded arrays (`C74_limits_false`) |
| C75 | `grid.plot()` without an axes argument raises `TypeError` |
| C79 | in double arithmetic `RectangleDomain(0.3, …).grid(0.1)` has two cells per row; coordinates of size 4 and more are not aligned up to the absolute tolerance 1e-15 after a refinement, so refining again (which the plots of regularized simulations do) can raise `AssertionError`; `RectangleDomain(10, 10, fix="lower").grid(10).refine(3)` cannot be refined again |
| C85 | the tolerance 1e-10 of the point location is absolute: the vertex (857.142…, 1000.0000000000001) of the refinement by 7 of the one-cell grid of the 1000 × 1000 rectangle lies in no triangle of the coarse grid; evaluation raises `ValueError` |
| C91 | the rounded time step is added up, so the time of the 80th step at `fps=10` is less than 8 |
| C108 | the third coordinate of a point of an accepted quadrature rule can be `-2⁻⁵³` |
| C05 in doubles (C109) | in double arithmetic `inverse_2x2` raises `ZeroDivisionError` for invertible matrices whose determinant is rounded to zero |

Minor observations: unknown strings in `fix` are ignored; `Vector.dot` does not compare sizes; `bell_interpolation_on_edge` does
not check the number of parameters; the initial traction accepts lists longer than two while the update requires
exactly two; `repr` of `BarycentricCoordinates` shows three weights though the constructor takes two; the product
`v * w` of two vectors or matrices returns a nested tensor instead of raising (C100).

## Plan per property

| id | property | modelled in | how proved |
|----|----------|-------------|------------|
| C01 | Vector arithmetic is entrywise and size-checked | Model/Tensors | unfold the list comprehension models; entry-wise `getElem` lemmas; ZeroDivisionError branch explicit |
| C02 | Indexing is bounds-checked and never wraps around | Model/Tensors | case split on the integer index; the Tensor3D half is FALSE of the code (the guards for axes 1 and 2 test `i` again): prove the negation by a witness and the `_partial` theorem |
| C03 | Matrix product is the mathematical product | Model/Tensors | transfer to Mathlib `Matrix` through an entry function; associativity and transpose from Mathlib |
| C04 | det is the determinant at every size | Model/Tensors | Python's `permutations` enumerates all injections once (induction); inversion-count sign = `Equiv.Perm.sign`; det = `Matrix.det` |
| C05 | inverse_2x2 inverts | Model/Tensors | field_simp/ring on the 2x2 formula; error branches by computation |
| C06 | reshape and flatten are inverse to each other | Model/Tensors | index arithmetic i*n+j, list extensionality |
| C07 | Constructed matrices and 3-d tensors are rectangular | Model/Tensors | induction over rows; error branches explicit |
| C08 | Barycentric coordinates sum to one | Model/Tensors | construction: ring; clamp: cases; preservation of the sum under assert_bounds is FALSE: negation witness and partial theorem |
| C09 | Grid combinatorics | Model/Domain | list comprehension membership, Nodup via injectivity of j*nh+i, lengths |
| C10 | Grid points lie on the lattice inside the rectangle | Model/Domain | div/mod arithmetic, floor bounds |
| C11 | Triangles tile the grid rectangle with positive orientation | Model/Domain | cell/diagonal case analysis of a point; lattice argument for disjoint interiors; sum of areas by counting |
| C12 | The boundary is the topological boundary | Model/Domain | coordinates of edges and triangles in the lattice |
| C13 | Dirichlet and Neumann edges partition the boundary according to fix | Model/Domain | invariant over the loop on `fixes`; set iteration order is a universally quantified parameter |
| C14 | Dirichlet vertices are the vertices of the Dirichlet edges | Model/Domain | tag invariant: tag = 1 - number of fixed sides containing the vertex |
| C15 | Neumann vertices are the vertices of the Neumann edges | Model/Domain | FALSE of the code (tag 0 vertices strictly inside a fixed side are still Neumann): negation for every such grid, plus partial inclusion theorem |
| C16 | Point location is correct | Model/Domain | sign of the three cross products; Cramer's rule; search over the triangle list |
| C17 | point_to_vertex inverts points | Model/Domain | lattice spacing versus tolerance; `find?` lemmas |
| C18 | Vertex lookups reject foreign simplices | Model/Domain | branching |
| C19 | append_edge keeps edges unique and the mean exact | Model/Domain | invariant over any list of append_edge operations |
| C20 | Grid equality ignores numbering | Model/Domain | relabelling relation; equality procedure shown sound and complete for well separated points; equivalence relation on grids of one mesh size; counterexamples to symmetry and transitivity for mesh sizes that differ by less than the tolerance |
| C21 | Domain curves | Model/Domain | list lemmas |
| C22 | Refinement never fails and keeps the coarse vertices | Model/Refine | lattice invariant of the intermediate grid through all loops; refinement to an abstract lattice grid |
| C23 | Refining equals gridding at the finer scale | Model/Refine | fix=None: both sides are lattice grids with the same parameters, then C20; with a fixed side FALSE (Neumann vertices, see C15): negation |
| C24 | Fine barycentric points map to the same Euclidean point | Model/Refine | dictionary invariant: stored barycentric coordinates describe the fine vertices; rotated triangles FALSE (coordinates are not rotated): negation witness |
| C25 | Fine edge points map to the same Euclidean point | Model/Refine | dictionary invariant for edges; fine edges on coarse diagonals are stored with the opposite orientation, so the claim is FALSE for them: negation |
| C26 | Refined boundaries are the subdivided boundaries | Model/Refine | invariant on the three boundary records |
| C27 | Refinement preserves area and orientation | Model/Refine | lattice refinement, areas by computation |
| C28 | Quadrature rule validation | Model/Quadrature | branching, isclose modelled by its definition |
| C29 | CENTROID, VERTEX, DUNAVANT2 and DUNAVANT3 are exact | Model/Quadrature | iterated interval integrals of monomials |
| C30 | DUNAVANT4 and DUNAVANT5 are exact up to the printed digits | Model/Quadrature | per monomial rational error bound by norm_num, triangle inequality |
| C31 | Gauss rules are transported to the unit interval | Model/Quadrature | numpy's leggauss is a parameter with its exactness as hypothesis; substitution rule |
| C32 | The triangle integrator integrates | Model/Integrators | linearity by list induction; exactness via the affine pull-back to the unit triangle |
| C33 | The boundary integrator integrates | Model/Integrators | list induction |
| C34 | P1 interpolation is affine interpolation | Model/Interpolation | ring / convexity; Lipschitz continuity across triangles by hat functions (C34_continuity) |
| C35 | P1 gradient is the derivative of the interpolation | Model/Interpolation | HasFDerivAt of the affine function |
| C36 | P1 edge values agree with triangle values | Model/Interpolation | ring |
| C37 | C1 interpolation matches its nodal data | Model/Bell over Model/Sym | evaluate the symbolic shape functions and their derivatives at the vertices |
| C38 | C1 interpolation reproduces quartics | Model/Bell over Model/Sym | polynomial identities in barycentric monomials, then linearity; derivatives through C39 |
| C39 | C1 gradient and Hessian are derivatives of the interpolation | Model/Bell over Model/Sym | symbolic diff is proved correct (HasDerivAt) for all expressions, then the chain rule |
| C40 | C1 interpolation is continuously differentiable across edges | Model/Bell over Model/Sym | value and gradient on L3 = 0 depend on edge data only: polynomial identity |
| C41 | C1 edge values agree with triangle values | Model/Bell over Model/Sym | substitution lemma and polynomial identity |
| C42 | Cyclic permutation of symbols | Model/Sym | induction over expressions |
| C43 | Refined interpolation is the coarse interpolation | Model/Interpolation | C24, C25 and definition of RefinedInterpolation |
| C44 | Euclidean evaluation | Model/Interpolation | C16 and C34; points of the rectangle beyond the grid raise (the statement for the full rectangle is FALSE when scale does not divide it); effect of the tolerance near edges bounded (C44_accuracy, C44_continuity) |
| C45 | Interpolation constructors validate their parameters | Model/Interpolation | branching |
| C46 | Austenite percentage is a percentage | Model/Helpers | Real.exp lemmas |
| C47 | Internal energy weight and its antiderivative | Model/Helpers | derivatives of the symbolic expressions; fundamental theorem of calculus |
| C48 | Austenite potential has its well exactly at the rotations | Model/Helpers | log x <= x-1 with equality case, AM-GM on entries |
| C49 | Martensite potential has its wells exactly at the two documented variants | Model/Helpers | sums of squares; uniqueness FALSE (the zero set is {det=1, |F|^2=9/4}): witness; characterisation proved |
| C50 | Stress functions are derivatives of the potentials | Model/Helpers over Model/Sym | symbolic diff correctness |
| C51 | Dissipation potential | Model/Helpers | matrix algebra |
| C52 | Reference heat conductivity is symmetric positive definite | Model/Helpers | matrix algebra |
| C53 | Total elastic potential interpolates between the phases | Model/Helpers | convexity, limits |
| C54 | Thermodynamic consistency of the internal energy | Model/Helpers | derivatives |
| C55 | Simulation parameters accepted by the constructor are usable | Model/Simulation | branching; usability FALSE for fps = 0 (accepted, then division by zero): negation |
| C56 | Step data round-trip and shape checks | Model/Mechanical, Model/Thermal | list lemmas |
| C57 | Fixed boundary never moves | Model/Simulation | invariant over all histories; solver = arbitrary function subject to the stated contract |
| C58 | Search radius bounds every step | Model/Simulation | invariant over all histories |
| C59 | Temperatures stay nonnegative | Model/Simulation | invariant over all histories |
| C60 | Number of steps and time stamps | Model/Simulation | invariant over all histories |
| C61 | Staggered scheme dataflow | Model/Simulation | refinement to an abstract recursion |
| C62 | Plot ranges cover all recorded steps | Model/Simulation | invariant; with regularization FALSE (derivative parameters enter the limits): negation |
| C63 | Mechanical steps do not increase the energy | Model/Mechanical, Model/Thermal | dissipation at the guess is 0; inequality |
| C64 | Regularized Dirichlet constraints mean identity on the edge | Model/Mechanical over Model/Bell | quintic Hermite data on the edge |
| C65 | Boundary data act in regularized simulations as well | Model/Simulation | FALSE of the code: the regularized simulation is independent of both callables (theorem) |
| C66 | run composes and rejects nonpositive counts | Model/Simulation | fold lemmas |
| C67 | A failing solver loses no recorded step | Model/Simulation | state kept at the raise point |
| C68 | Initial state | Model/Simulation | P1/Bell reproduction of the identity |
| C69 | Thermal objective | Model/Mechanical, Model/Thermal | derivatives of the potentials, linearity of the integrator |
| C70 | Hyperelastic potential | Model/Helpers | tensor algebra; nonnegativity, zero set, frame indifference by entry computation |
| C71 | Retrying after a failed step | Model/Simulation | symbolic execution of `run` after a failure at either phase; negation by a concrete simulation |
| C72 | Recorded steps evaluate to the recorded data | Model/Simulation, Model/Interpolation | history invariant plus C34/C37/C44; negation for scale 1e-6; between the vertices C44_accuracy |
| C73 | Recorded deformations preserve orientation | Model/Mechanical | the logarithm raises on a nonpositive determinant, so a defined objective implies det > 0 at every quadrature point |
| C74 | Plots of recorded steps show the recorded data | Model/Plot | unfold the commands; C72 for the values; lattice coordinates of the plotted points for the colours; a bent square for the limits |
| C75 | Plots of grids and domains | Model/Plot | unfold the commands; limits by fold lemmas |
| C76 | Comparing, iterating and exporting tensors | Model/TensorText | list extensionality |
| C77 | Printed tensors are unambiguous | Model/TensorText | injectivity of the printer by induction on lists, given injective printing of numbers |
| C78 | Every problem posed to the solver has an optimal solution | Model/Mechanical, Model/Thermal, Model/Simulation | the feasible set is a closed subset of a box, the objective is continuous where it is defined and tends to infinity at det = 0; extreme value theorem |
| C80 | Frame indifference of the simulation | Model/Mechanical, Model/Thermal | strains are linear in the data; all densities are frame indifferent; sums over quadrature points |
| C81 | Refinements compose | Model/Refine | both results are lattice grids over the same box; the subdivision of a subdivided boundary edge is the finer subdivision, then C20 |
| C82 | Set iteration order and the spelling of fix do not influence results | Model/Domain, Refine, Mechanical, Thermal, Simulation | relational proof: two executions on grids that agree up to permutation of boundary lists run in lock step (same results, related states), through refine, model construction, every update method, the solver and run; sums over boundary edges are invariant under permutation |
| C83 | Grids are independent objects | Model/Storage (domain.py once more, with lists as objects in a heap) | simulation: each method on the heap computes what the value model of Model/Domain and Model/Refine computes, while writing only to objects it created (ownership invariant `Own`) |
| C84 | Heat capacity and uniqueness of the temperature of a step | helpers, thermal step | calculus for `internal_energy`; strict monotonicity of the derivative of the thermal objective (positive heat capacity, positive definite conductivity, unisolvence of the quadrature points), hence strict convexity along segments of admissible temperatures |
| C85 | Point location and evaluation survive rounding | Model/FloatLocate | a calculus of absolute errors (`Ap`) for sums, products and quotients of rounded numbers; the sign tests are bounded by the tolerance 1e-10, the barycentric coordinates by Cramer's rule with relative error; concrete counterexample for size 1000 by kernel computation |
| C86 | Parameters act only at creation; recorded steps are output only | Model/Simulation | non-interference: each method of a step commutes with assigning the attributes; the one test of the parameters compared with the shapes of the arrays |
| C87 | Double precision grids and refinements have the exact combinatorics | Model/FloatRefine | simulation relation between the exact and the rounded program, loop by loop; rounding error bounds separate equal from different lattice points at every comparison |
| C88 | The formulation of a step is chosen by the regularization alone | Model/Mechanical, Model/Thermal | case analysis of the factories; shapes from the invariants of C56 |
| C89 | Slices of vectors follow Python's rules | Model/Slices | arithmetic progressions; sorted lists with equal members are equal |
| C90 | Operations on tensors change no tensor and, except stacking, return independent tensors | Model/TensorStorage | simulation of the operations on values; freshness of new lists; induction over histories |
| C91 | Time stamps in double precision | Model/FloatTime | induction with powers of the unit roundoff, Bernoulli's inequality |
| C79 | Rounding does not break gridding and refinement | Model/Float64, Model/Refine | standard error analysis from `|fl x - x| ≤ 2⁻⁵³|x|` (proved for the rounding function); negations by kernel evaluation of the rounded computation |
| C92 | Discrete balance of forces | Spec/Force | derivatives of the potentials (cofactor calculus), of the quadrature sums and of the composed interpolations along lines; Fermat's rule at optimal answers; constant displacements |
| C93 | Integrals over the domain and its boundary | Spec/Converge | the triangles tile the rectangle up to null sets (C11), transport of Lebesgue measure to the reference triangle, variation bounds; boundary edges by sides |
| C94 | Approximation by P1 interpolation | – | P1 on a right triangle as an affine function through nodal values, mean value theorem along segments |
| C95 | Consistency of the objectives with the continuum energies | Spec/Converge, Energy, Thermal | uniform convergence of strains (C94), uniform continuity of the potentials near the compact range of the continuum strain, convergence of the quadratures (C93) |
| C96 | Transition temperature | – | potentials in two invariants of the strain, sum of squares; a shear below the transition |
| C97 | Equilibria stay at rest | Spec/Rest | energy decrease plus pointwise minimum forces rotations without dissipation, hence strain 1; strict monotonicity of the heat balance forces the same temperature; induction over the steps; connectedness of the triangulation |
| C98 | First law | Spec/FirstLaw | optimality in admissible directions gives the sign of the derivative of the thermal objective (C69); test function 1; telescoping over the run |
| C99 | When an undeformed body transforms | Spec/Cold, Spec/Rest | pointwise: both wells and the dissipation as sums of squares, sharp in 3α + 2·fps; competitor: rows or columns slide along a parabola, which keeps determinant 1 and the fixed sides |
| C100 | Operators applied to arbitrary operands | Spec/Operators | operator dispatch on an inductive type of (nested) values, Model/Operators; unfolding for tensors of numbers of any size, induction over the terms of the sums |
| C101 | Units of length and symmetries of the rectangle | Spec/Similar | the vertex permutation of a similarity of the plane; sums over triangles and edges are reindexed along it, the strains are conjugated by the linear part; optimality transported through the correspondence of admissible answers |
| C102 | Approximation by Bell interpolation | Spec/Partials | explicit Bernstein-like bounds of the Bell shape functions and their derivatives on the right isosceles cell, exactness on quartics (C38), Taylor's formula with remainder by induction along segments |
| C103 | Consistency of the objectives of regularized simulations | Spec/Partials, Spec/Energy, Spec/Thermal | the fields by C102 and C43, Lipschitz bounds of the potentials, quadrature error of the refined grid (Lemmas/Converge); limits by uniform continuity on compact sets (Lemmas/RegConverge) |
| C104 | Bell interpolation is the Bell element | Spec/BellUnique | existence: closed form of the shape functions as a polynomial, C37, C39 and the edge formulas of C40; uniqueness: pull back to the reference triangle and solve for the 21 coefficients; invariance under renumbering and similarities from uniqueness |
| C105 | units of length and half turns in regularized simulations | Spec/Similar (`ImageDeformationC1`, `MeshImage`) | chain rule for the Bell element from C104 (uniqueness), location of the sub triangles (C43), quadrature triangle by triangle; optimal steps: images and preimages of admissible deformations are admissible (bounds, fixed values, the six equations at Dirichlet edges) |
| C106 | Attempts repeated after failures | Spec/Descent (`IsMechEnergy`, `IsMotion`, `Solver.KeepsTemperature`) | invariant over all calls of `run`, failing or not: the temperatures of the thermal step are those of the last recorded step, and the deformation it holds is reached from the recorded one by a motion that lowers the energy; recovery from `posed_start` (every posed problem has a feasible starting point) and C66_compose |
| C107 | Simulations on fine grids compete with every smooth deformation | Spec/Converge, Spec/Partials, Spec/Optimal | the nodal interpolation of the competitor is admissible (bounds, fixed values and, along fixed edges, the equations of the constraints, by differentiating the identity along the edge), so the optimal answer is at least as good (`mech_beats`); consistency (C95_objective, C103_mechanical_limit) bounds its objective |
| C108 | Quadrature in double precision | Model/FloatQuadrature, Model/FloatIntegrators, Spec/FloatQuadrature, Spec/FloatIntegrators | rounding error analysis (`fl_error`); 1 < fl z iff 1 + 2^-53 < z; the built-in rules by kernel evaluation of rational numbers on monomials, then linearity; FALSE part: third coordinates can be negative by one rounding error |
| C109 | Tensor arithmetic in double precision | Model/FloatTensors, Spec/FloatTensors | `fl` is proved to give the nearest double (Lemmas/FloatRounding), hence monotone; standard error analysis of sums of products; products over permutations by induction on the list of permutations |
| C110 | Piecewise affine interpolation in double precision | Model/FloatInterp, Spec/FloatInterp | error calculus `Ap` for values and the area; the error of the area is a common factor of the gradient, the rest is the sum of three products (`sum_terms`); on grids the computed triangles stay axis-parallel, so the exact gradient on the computed grid is the stretched exact gradient |
| C111 | The laws of motion and heat hold after failures | Model/Simulation, Spec/Attempts | induction over the history finds the two problems of each recorded step and where their previous data come from (`Sim.Reachable.attempts`); then the proofs of C63, C92, C69, C98, C84 for these problems |
| C112 | Bodies at rest stay at rest, and cold bodies transform, also after failures | Model/Simulation, Spec/Endures | induction over the history: a predicate of deformations kept by mechanical solves passes through failed attempts to the next recorded step (`Sim.Reachable.chain`); the energy estimates of C97 and C99 for single solves |
| C113 | Threshold between bodies that never move and bodies that transform | Model/Simulation, Spec/Threshold | the estimates of C99 at the initial temperature, induction over the history (C112), uniqueness of temperature (C97); the README example as an instance |
| C114 | Boundary tractions set bodies in motion | Model/Simulation, Spec/Pulled | balance of forces (C92) at strain 1, where the stresses vanish; displacement of a single vertex; C97 for fixed bodies; example.ipynb as an instance |
| C115 | The surroundings heat and cool bodies | Model/Simulation, Spec/FirstLaw | heat balance (C98) with constant test functions, monotone internal energy (C84), sign of the boundary term; bodies at rest from C97, C99 |
| C116 | Moves are bounded also after failures | Model/Simulation, Spec/Moves | invariant over single steps (successful or failing): distance of the current deformation to every recorded one; C58 for the base |
| C117 | Search ranges in double precision | Model/FloatSearch (double precision), Props/FloatSearch | monotonicity and relative error of rounding; gap between two doubles; induction over steps |
