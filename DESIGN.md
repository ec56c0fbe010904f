# Formal model of gbs (ssg-aero/gbs) in Lean 4

## Trusted base

* Lean 4.33.0's kernel and the installed Mathlib. No axiom is added; every
  theorem named in `MANIFEST.json` depends on a subset of `propext`,
  `Classical.choice` and `Quot.sound` (printed with `#print axioms`). There is
  no `sorry`, `native_decide` or `bv_decide`. Examples on concrete data use
  `decide +kernel`, that is, evaluation by the kernel.
* The faithfulness of the hand-written model to the C++ text. Every model
  definition cites the file and lines it transcribes and says where it
  simplifies; the index is at the end of this file. The seeded mutations of
  `seeded/LOG.jsonl` test that the theorems notice changes of the model.
* **Numbers.** `T` (float/double) is an arbitrary linearly ordered field `K`
  (`ℝ`, or a field with a given square root, where square roots are taken). The
  theorems are about the exact meaning of the code: rounding, infinities and
  NaN are *not* modelled. A division by zero is the fault `Err.divZero`.
  Tolerances (`knot_eps`, …) are parameters. In particular `in_circle` and
  `orient_2d` are exact in the meshes of the model; in the code `in_circle` is
  plain floating point and `orient_2d` has the exact sign.
* **Floating point.** That exact sign (`robustPredicates.h`, C74 and C75) is
  proved of a model with rounding: numbers are rational, each operation is the
  exact one followed by `Fl.rnd`, round to nearest, ties to even, with `p` bits.
  Trusted: that the operations of the machine are these, that is, IEEE-754, the
  default rounding mode, no contraction and no excess precision. Infinities and
  NaN do not occur in the range of `C74_orient2d_double`.
* **Integers.** `size_t` is `ℕ`; a subtraction that wraps is a fault, except
  where the wrap-around is what matters (constructor of surfaces, knots of too
  few poles, multiplicities in C132). `int` and `size_t` overflow of factorials is modelled.
* **Undefined behaviour.** Vector accesses are checked; out of range is
  `Err.oob`, a null pointer `Err.null`, an exception `Err.thrown`, a call of
  `std::terminate` `Err.terminated`, a loop that does not end `Err.noEnd`. A
  theorem `f x = .ok y` also states the absence of all these.
* **Containers.** `std::vector` and `std::list` are `List`; `std::array<T,dim>`
  is `Fin dim → K`, or an arbitrary `K`-module where only the vector space
  operations are used.
* **Pointers.** Half-edge meshes are stores: numbered half-edges, vertices and
  faces, with counters of what has been allocated. `shared_ptr` is
  `Option ℕ`. Sets of pointers are lists, in an order that stands for that of
  the addresses where it matters.
* **Threads.** The parallel functions of `execution.h` are sequences of atomic
  steps of tasks, interleaved in any order.
* **Eigen.** The sparse LU fall-back of the interpolations of curves, the
  dense LU of those of surfaces and the Cholesky factorizations of the
  approximations are functions given as arguments, assumed only to solve
  regular systems. For points, points and derivatives, and grids of
  points, the systems are proved regular (C76, C77). For arbitrary constraints
  the theorems assume that the constraints determine the poles.

## Not modelled

NLopt itself (a parameter of the model of `extrema.h`, assumed only to return a
point of the box whose value is not larger than that of the first one),
`closest_curve` (it does not compile), the iterations of Newton and the search of
Brent of Boost (parameters of the models of `solve_coordinate` and of the searches of
coordinates, C125), `extrema_curve_curve_lst`, the quadrature of `bscanalysis.h` (a parameter of the models of `length` and
`abs_curv`),
the copies of lists of pointers of `bssbuild.h:26-38`, `263-277`,
`Wire::close` (it does not compile), `add_noise`, `print.h`, the file formats other than the JSON trees, the text
files and what is given to the writer of IGES (C119), rendering (VTK) other than the points
and cells of meshes (C118), OCCT, CUDA, Python bindings, memory allocation failure and timing.

## Layout

* `lean/Verif/Model` — the code.
* `lean/Verif/Spec`, and definitions named `Spec.…` beside the theorems — the
  specifications (Cox–de Boor recursion, signed area, valid mesh, …). They do
  not use the definitions of the model beyond its data types.
* `lean/Verif/Lemmas` — helper lemmas (blossoms, loop invariants, crossings, …).
* `lean/Verif/Props` — the theorems of the properties, with examples that
  satisfy their hypotheses.
* `properties.jsonl`, `MANIFEST.json`, `seeded/LOG.jsonl` — properties, claims,
  mutations.

## How things are proved

* Evaluation (C01–C11): row `j` of algorithm A2.2 is the row of Cox–de Boor
  functions of the span; spans are polynomials and derivatives are
  `Polynomial.derivative`; `iteratedDeriv` over `ℝ`.
* Insertion, trimming, degree (C16–C20, C24, C49, C57–C59): blossoms of the
  polynomial of each span; the algorithms on checked arrays refine formulas on
  lists.
* Interpolation (C35, C36): invariant of the band factorisation, then the
  collocation equations.
* Conics, transformations, wrapped curves (C26, C46–C48, C60–C65): algebra, and
  `HasDerivAt` for the derivatives.
* Parallel (C32): invariant over all interleavings.
* Meshes (C37–C44, C68, C71–C73): `Spec.Valid` as an invariant, frames for the
  parts of the store that are not written.
* Delaunay (C42, C69, C70): the cavity is star-shaped, areas telescope, and the
  in-circle test propagates from neighbours (`Lemmas/InCircle`).
* Polygons (C67): crossing parity additive over triangles.

## Disagreements

Places where the code does not do what its comment, its name or the property
says. Each is a theorem about the model (general, or with concrete data).

* C01 `find_span` with end multiplicity above `p+1` returns an empty span.
* C07 at degree 0 the summation algorithm throws.
* C11 the constructor accepts knots that decrease by less than the tolerance.
* C13 `scaled_weights` ignores the mean it is given.
* C14 null weights do not survive the separation.
* C15 derivatives of rational curves are wrong from order 21 on (factorial in
  `size_t`), and divide by a null weight.
* C16 inserting a knot outside of the knots accesses out of range.
* C19 inserting a knot zero times changes the poles.
* C20, C56 trimming with decreasing parameters stores decreasing bounds.
* C21 reversal after a soft trim does not mirror the bounds.
* C24, C50, C58 elevation to degree 13 and above overflows `int` factorials.
* C25 `build_derivate` divides by zero at knots of multiplicity `p+1`.
* C27 the constructor of surfaces accepts wrong sizes after a wrap-around.
* C28 the blocked transposition of an empty grid accesses out of range.
* C31 `pole(i,j)` exchanges its indices.
* C32 an exception above the parallel gate ends the program.
* C34 polylines shorter than the tolerance are not normalised.
* C36 the band solver refuses constraints on derivatives; Eigen is used.
* C40 `add_vertex` reads the back of an empty list for an empty loop.
* C41 `splitHalfEdge` leaves a crack at every interior edge, and the new vertex
  designates a half-edge that does not end at it.
* C42 `boyerWatson` refuses the points of the outer edges although its comment
  says that the fallback always succeeds.
* C44 `is_boundary` answers the opposite.
* C45 for flat triangles `in_triangle` accepts points outside; the comment of
  the barycentric coordinates names the wrong corners.
* C46 the composition of frames uses the matrix of the first frame, not its
  inverse.
* C47 null weights make affine maps divide by zero.
* C48 composite curves read out of range below their bounds; the derivative of
  clamped extensions is not zero.
* C49 the boolean overload of knot removal is wrong; removing more often than
  the multiplicity accesses out of range.
* C50 knots closer than the tolerance are merged, which changes the curves.
* C51 `insert_unique_ordered` does not see an equal knot just below.
* C54 averaging of knots fails at degree 0 and with too few poles.
* C60 segments between coincident points divide zero by zero.
* C61 the second derivative of curves on surfaces lacks a term.
* C62 the derivative of the space offset is wrong.
* C63 circles built from an axis have a wrong radius or plane in general.
* C64 surfaces of revolution ignore the origin of the frame in part.
* C65 the lower bound of lines is `numeric_limits::min()`, a positive number.
* C66 `on_segment` rejects the only point of a segment reduced to a point.
* C67 `sphere_center` is not the centre.
* C68 `recoverEdge` never flips an edge on counter-clockwise triangles, so a
  missing edge is never recovered; `delaunay2DConstrained` relies on it.
* C70 `delaunay2DBoyerWatson` may miss triangles at the hull, up to all of
  them, because its encompassing mesh is a rectangle.
* C74 `orient2d` may return zero for points that are not collinear when the
  products of their differences underflow.
* C79 `refine_approx` marks "no candidate" with a negative parameter, so that a
  curve over a negative domain is never refined; with as many poles as points
  it throws instead of stopping.
* C80 the surface `approx` accepts less points than its grid of parameters has
  and reads past their end; it accepts less parameters than poles in one
  direction, where no least-squares solution is determined.
* C81 `join` of curves whose ends differ moves both of them to the middle of
  their ends; it reads the end knots, not the bounds, so that a curve trimmed
  without inserting knots is joined at the end of its knots.
* C82 `extention_to_point` takes the square of the distance divided by the
  speed as the parameter interval of the extension, so that a straight line at
  unit speed extended by 10 overshoots its new end and comes back; a natural
  end is ignored below degree 3.
* C83 `loft` without parameters gives the same parameter to a section that is
  repeated, which makes the system singular; the solve is not checked.
* C84 the junction of rational surfaces does not bring the weights of the facing
  borders to the same scale, unlike that of curves, so that the second surface
  changes; `split_u` and `split_v` accept a bound, and then one of the parts has
  no poles, or one, and cannot be evaluated.
* C85 `unify_knots` of surfaces accepts surfaces of different degrees and returns
  different knots for them; knots closer than the tolerance stay different.
* C86 `gordon` does not require that the curves end at the crossings: it accepts
  curves that go beyond, and then the lofts are on the bounds of the curves, the
  interpolation on those of the crossings, brought together by a change of
  parameter, so that the surface does not contain the curves.
  `build_intersections` is documented to throw when curves do not touch, from
  inside a parallel `std::transform`: with parallel algorithms this ends the
  program.
* C87 `loft` along a spine asks for a point and a tangent at each section, on
  uniform knots spaced by the length over `n-p+1` (the last interval is longer)
  whatever the parameters of the sections. For three sections the system is
  singular as soon as the second one is not strictly between 1/5 and 3/5 of the
  interval, for instance sections at 0, 7 and 10; the factorization of Eigen is
  then not defined, and no surface with those knots has the sections and the
  tangents unless they happen to satisfy the relation of `C87_uneven_chord`.
* C88 `extention_to_curve` of a surface projects the homogeneous poles of a
  rational surface and of the curve and gives weights one to the extension, so
  it is on neither border when the weights vary along them
  (`C88_rational_witness`); it does not compare the knots of the curve with
  those of the surface, and does not end on the curve when they differ
  (`C88_other_knots_witness`); it reads the poles of the curve by the index of
  the row without a check, out of bounds for a shorter curve
  (`C88_short_curve`).
* C89 `extention` of a surface by a length approximates the points at that
  length by a curve on the knots of the surface: between the corners its
  distance is not the length asked, even if the border is a point
  (`C89_length_witness`); the ten points by pole are evenly spaced whatever the
  knots, so that with uneven knots the system has null rows
  (`C89_uneven_witness`). Extended at a start, a surface is shifted along its
  parameters, while an extended curve keeps its own (C82). `extention` at a
  start or along V returns the extension of the reversed or exchanged surface,
  and does not undo it, unlike `extended`.
* C90 `moved_to_constraints` of a curve computes the differences between the
  constraints and the curve, and then passes the constraints: they are added to
  the values of the curve instead of being reached (`C90_constraints_partial`,
  `C90_constraints_witness`). Without constraints the size of the range wraps
  around for at least three poles (`C90_no_constraints`). With fixed ends, a
  point asked at an end solves a system with a null matrix, and is never
  reached (`C90_fixed_end`).
* C91 the matrix of `move_to_constraints_delta` of a surface does not use the
  orders of derivation: a constraint on a derivative moves the point by what
  the derivative misses (`C91_constraints_partial`), and can give the opposite
  of what is asked (`C91_orders_witness`).
* C92 a segment of the network shorter than half the step asked for gets one
  node; `uniform_distrib_params` then fills a range that ends before it begins
  (`C92_short_segment_witness`). With derivatives kept along the curves, the
  blend of the derivatives is built for the derivatives across the lines, and
  multiplies those along them (the code asks itself why the indices are
  inverted); the lines are still interpolated, no slope is claimed.
* C93 the maximum number of points of a discretization is compared with the
  number of the first parameters only, and is exceeded by the refinement
  (`C93_max_witness`). A knot that is also a first parameter comes twice, and
  so does its point (`C93_twice_witness`). A chord whose two ends are the same
  point has a deviation 0/0 and is never refined: a closed curve cut in one
  gives its first point twice (`C93_closed_chord`). Along iso-curves of
  surfaces the recursion has no tolerance on the parameters and never ends at
  a corner of the iso-curve (`C93_iso_no_end`).
* C94 — elliptic smoothing of structured meshes. Nothing checks the block: with
  `j2 = nj` the nodes at the end of a line are moved with the start of the next
  line as neighbour, or the read is out of bounds (`C94_block_too_wide`). A node
  with both centred differences null gives 0/0 (`C94_degenerate`); in the code the
  result is a NaN, `err_max` of which is lost by `std::max`. The Python function
  passes the tolerance as the number of iterations and makes one iteration
  (`C94_python`, `C94_python_witness`). `n_it = 0` makes one iteration.
* C95 — wires. `addEdge` ignores the result of `setVertex1` and `setVertex2`: an
  edge with a smaller tolerance than the wire is added without being joined, and
  `addEdge` returns true (`C95_not_connected`). The nearness of the other end is
  only tested when no vertex is shared: a chain whose last edge is joined by its
  vertex is not closed although it comes back to its start, and the first edge can
  then be added again (`C95_not_closed`). An edge in two wires is changed in both,
  and the first one may be disconnected (`C95_shared`). `Edge::tessellate` uses the
  whole curve whatever the bounds of the edge (`C95_tessellate_trimmed`).
  `Wire::close` calls `end()->vertex2()`: it does not compile when used (the
  iterator points to a `shared_ptr`), and would read past the last edge.
* C96 — connections. `cn_connect` with a degree not above the order repeats the
  end knots too often and divides by zero (`C96_low_degree`). The gap is not
  checked: touching ends divide by zero (`C96_touching`, the code has a TODO). With
  the coefficient e, the cubic of the plane may have no second derivative in the
  middle, for instance between parallel segments (`C96_parallel`); out of the plane
  equal tangents divide by zero (`C96_through_parallel`). When a side is not taken,
  both derivatives are negated, but the second derivative of a reversed curve
  keeps its sign: the curvature jumps to its opposite (`C96_sides`).
* C97 `delaunay2DConstrained` keeps the inside of the polygon only when every side
  is already a side of the Delaunay triangulation (`C97_polygon_partial`): the
  recovery of edges never changes the mesh (C68), so the fill goes through a side
  which is missing and returns triangles outside of the polygon (`C97_leaks`);
  triangles of the hull are lost with the corners of the encompassing rectangle
  (`C97_misses`). The returned faces keep links to the faces which are not
  returned.
* C98 `meshSurfaceBoundary` gives its vector the size of the four lists, writes
  two elements less, and returns `{0,0}` twice at the end. The base mesh then
  has a vertex at the origin, out of the bounds (`C98_out_of_bounds`) or inside,
  where a part of the rectangle can be missing (`C98_uncovered`).
* C99 `delaunay2DBoyerWatsonSurfaceMeshRefine` tests the criterion of the triangle
  which it has just split: the mesh returned can have triangles that do not meet
  it although points were left (`C99_not_met`), and a point is inserted in a mesh
  that meets it. The criteria on the length of sides propose the origin when no
  side is shared (`C99_dummy`). The end of an empty list is dereferenced
  (`C99_empty`).
* C100 `takeInternalFaces` and `takeExternalFaces` judge a face by its centroid: a
  side of the boundary that is not an edge of the triangulation is not respected
  (`C100_side_missed`), and `delaunay2DBoyerWatson` with an inner boundary does not
  insert the points of that boundary, so a small hole can take half of the mesh
  (`C100_hole`). The faces returned keep links in one direction only
  (`C100_links_taken`).
* C101 (JSON documents): knots within the tolerance of each other are written as
  one knot, so the curve read is another one (`C101_merged`); a pole that is not
  null of weight zero is read as null (`C101_zero_weight`). Composite, trimmed
  and offset curves are written, but `make_curve` does not read them
  (`C101_thrown`, `C101_only`). `make_json` of a curve on a surface of revolution
  calls the overload that does not know this surface and writes `null`, from
  which reading is undefined (`C101_lost`). The document of a surface of
  revolution says `dim` 2 (`C101_revolution`).
* C102 — refinement with smoothing. `getNeighboringVertices` walks on the
  half-edges that end at the vertex and collects their ends, that is the vertex
  itself, as many times as there are faces (`C102_neighbours`). So
  `laplacian_smoothing` never moves a vertex, and divides by zero for a vertex
  of one triangle (`C102_smoothing`). `!is_locally_delaunay(ed)` is true when
  the number returned is exactly zero: edges that are not Delaunay are never
  flipped, and those whose four points are on a circle are
  (`C102_not_restored`). `*vtx` dereferences a null pointer when the point
  proposed is a vertex or not inside. The loop goes on while `crit >= crit_max`,
  so it inserts all the points allowed when `crit_max` is zero
  (`C102_exact_criterion`).
* C103 — nearest points. The functions of `extrema.h` minimise the square of the sum of the
  squares of the coordinates, and return the square root of it: the number
  returned as the distance is its square. `build_intersections` and the setters
  of vertices of edges compare it with a tolerance, so that segments at the
  distance 1/2 touch with the tolerance 1/3 (`C103_squared`, `C103_touching`).
  The gradient given to NLopt for two curves has the wrong sign along the
  second one; for a surface and a curve it uses `srf(u, 1, 0)` and
  `srf(v, 0, 1)`, which are the point at `(u, 1)` and the derivative at
  `(v, 0)` (`C103_gradient_curves`, `C103_gradient_plane`). The search of a
  surface and a curve gives its best sample `(u, v, w)` to a function that
  takes `(w, u, v)`: it starts elsewhere, or throws (`C103_surf_curve_order`,
  `C103_surf_curve_start`). `max_coordinate` and `min_coordinate` act on the
  absolute value. `max_curvature_pos` returns the square of the second
  derivative (`C103_not_curvature`), and its gradient misses a factor
  (`C103_gradient_curvature`).
* C104 `abs_curv_adaptive_discretzation` goes on with an iterator that the
  insertion has invalidated: undefined as soon as an interval has to be cut
  (`C104_adaptive_partial`). The criterion compares the length of an interval
  with the sum of those of its halves, which are the same: with exact lengths
  nothing is ever cut (`C104_never_adapts`). The law of `abs_curv` is a cubic
  through the samples: it need not be increasing, nor stay within the bounds, and
  `uniform_distrib_params` then throws (`C104_not_increasing`); with less than two
  points it reads past the end (`C104_params`). The documentation of
  `abs_curv_adaptive` announces the abscissa from the parameter; it is the
  inverse, as `abs_curv`, which it equals.
* C105 `DeviationMeshSurface` is "the deviation between the parametric surface and
  a given half-edge triangular face", by the normals. `getTriangleCoords` gives
  the corners in the other order than the face, so the normal is reversed: on a
  plane the deviation of a counter-clockwise triangle is 2, the greatest possible,
  and that of a clockwise one is 0 (`C105_deviation_plane`, `C105_deviation_mesh`).
  `TriangleShape2` compares scalar products that are not divided by the lengths
  with a sine: equilateral triangles get any value (`C105_shape2`,
  `C105_shape2_equilateral`). "Largest edge outside boundary" of
  `TriangleShapeEdgeSplit` is the first edge, shared or not, when the library
  compares the iterators of a face with `==`, for which the end equals the
  beginning (`C105_edge_split`). "Check if the minimum edge length is below the
  given threshold" checks the longest (`C105_shape`). `DeviationMeshSurface2` is
  null when the direction of a side is reversed from one end to the other
  (`C105_turn`). `DistanceMeshSurface` does not compile.
* C106: "Approximate curve respecting original curve's parametrization between
  params u1 and u2" samples the whole curve, as a comment admits
  (`C106_between`, `C106_between_witness`). "bounds approximation match crv's
  bounds" holds of the points but not of the parameters for the approximations
  with a mode of parametrization, and `to_bs_curve` changes the bounds of a curve
  that is not a B-spline (`C106_to_bs_curve`, `C106_bounds_witness`). The samples
  of an approximation through a map are refined where the curve deviates, not its
  image (`C106_mapped`).
* C107: `msh_edge::compute_pnts` writes the first of no points when
  `set_n_points` was not called, although the number of points is 2 from the
  start (`C107_new`). `update_law` gives a law that leaves `[0, 1]`: with eleven
  points and steps of 0.528 and 0.024 of the length, the fourth point is asked
  for beyond the end of the curve and an exception is thrown (`C107_leaves`).
* C108 `offset_approx` does not compile for rational surfaces: it gives poles
  without weights to the constructor of a rational surface. A null normal is
  divided by its norm (`C108_point`).
* C109 `build_3pt_tg_vec` and `build_3pt_tg_dir` compute the last vector from
  itself (`*std::next(D.end(),-1)` is `D.back()`, still null) and the ends from
  the chords instead of the chords divided by the steps (`C109_ends`,
  `C109_witness`); `adim` of a vector of vectors leaves the last as it is and the
  inner directions are those of the parabolas only for equal steps
  (`C109_direction_witness`). `interpolate(Q,u,true)` sets the derivative of order
  nc to zero at the ends, which is natural for tangents but stops the curve when
  only points are given (`C109_not_reproduces`).
* C110 `compute_rolling_ball` starts the search of the nearest point of the second
  curve at the parameter of the first, which NLopt refuses when it is not one of
  the second curve (`C110_answers`); for curves taken for parallel it returns the
  middle of the two points even when these do not face each other
  (`C110_parallel_witness`); without a ball it returns a centre all the same
  (`C110_no_ball_witness`).
* C111 `normal_direction` of a curve of space points away from the centre of
  curvature, `d_dm2` towards it, and `normal_direction` of a curve of the plane to
  the left: for a curve of the plane that turns left the two normals are opposite
  (`C111_two_normals`).
* C112 `lattice_intersections` compares the tolerance with the square of a distance:
  curves farther apart than the tolerance, up to its root, are accepted
  (`C112_gap_accepted`). `tfi_mesh_2d` from a surface builds its lines with
  `build_segment`, whose parameters start at 0, and evaluates them at the
  parameters of the surface: when the first is not 0 the points are others, and
  the last cannot be evaluated (`C112_iso_lines_shifted`).
* C113 `split` finds no word in a line without separator: a file of one column
  is refused in dimension 1 (`C113_one_column`). White space that is not the
  separator is removed before the numbers are read, so `1<tab>2 3` is read as the
  point `(12, 3)` (`C113_white_vanishes`).
* C114 `build_poles` for several columns ignores without notice what the columns
  have more than the first (`C114_cut`) and reads outside a shorter column
  (`C114_short`).
* C115 `loft_approx` says that the parameters across are brought to `[0, 1]`: they
  are only divided by their extent, so the domain starts at the first station,
  `[1/2, 3/2]` for feet at 1 and 3, `[-3/2, -1/2]` when the sections are given the
  other way (`C115_domain_witness`). It also says that the guide makes the fit
  well-posed: with the default arguments, six sections of which five are in the
  first tenth of the spine leave a pole that no sample sees
  (`C115_clustered_witness`), because the knots are uniform whatever the stations.
* C116 The tolerance of the crossing test in `base_delaunay2d_mesh` is absolute: on a
  square of side `1e-6` the crossing of the diagonals is not seen and the four
  triangles are returned, which overlap (`C116_witness`); on the unit square there
  are two. The faces are not linked: every half-edge has no opposite, as
  `C116_faces` says, so that what walks from a face to the next one finds none.
* C118 `make_polydata_from_edges_loop` (`inc/topology/halfEdgeMeshRender.h:254-297`) numbers the ends of the half-edges only. When they do not close, `vertices_map[...]` inserts the start of the first one with the number 0, which is its end: the polyline starts with a segment of length zero and the first half-edge is missing. When nothing precedes the first half-edge, the polyline has one identifier more than it stores (C118).
* C119 `add_geom` (`gbs-io/iges.h:10-25`) accepts curves and surfaces of the plane (`IgesWriter::add_geometry`), and gives their poles with two coordinates to entities that read three: reading goes beyond the array (C119_plane). A surface of revolution whose axis does not pass through the origin of the coordinates is exported as the right surface, which is not the one that `value` evaluates (C119_origin, C64).
* C120 `add_dimension` of a rational curve or surface appends the value after the weight: the value becomes the weight and the weight the last coordinate. With the default value 0 all points are the origin (C120_rational, C120_rational_default, C120_rational_surface). The bounds of a trimmed curve are lost (C120_witness).
* C122 `unify_curves_knots` ignores the bounds of trimmed curves other than the first: they come back whole (C122_bounds_lost, C122_witness).
* C123 the lofts read poles, knots and degree of a section and not its bounds: a section trimmed without cutting its knots is lofted whole (C123_bounds_lost, C123_bounds_witness).
* C124 the parameters of a description of type bscurve_interp are ignored unless its mode is SPECIFIED (C124_params_ignored, C124_witness), while one of type bscurve_interp_cn uses them whatever its mode; SPECIFIED with no parameters means the lengths of the chords (C124_specified_empty); a row of derivatives shorter than that of the points is read outside its bounds (C124_short_row).
* C125 max_coordinate minimizes 1/x², min_coordinate x²: they find the greatest and the least absolute value of the coordinate. On the segment from -3 to 1 the first finds -3 with the value 1/9, the second 0 (C125_max_abs, C125_min_abs, C125_witness). Their argument Xi is not used.
* C127 operator== and operator!= of HalfEdgeFaceEdgeIterator are not opposite: begin(face) == end(face) and begin(face) != end(face) both hold for every face (C127_begin_equals_end). The loop over a face without half-edge, or with half-edges that are not closed, is given null pointers for ever, where getFaceEdges ends (C127_empty_face, C127_open_face, C127_open_edges). getTriangleVertices returns the vertices in the order opposite to that of the face (C127_triangle_vertices).
* C128 CurveOffset3D::value of orders 1 and 2 of a constant offset returns the derivatives of the curve, not of the offset one: a circle of radius 1 offset by -1 is a circle of radius 2 whose derivatives are said to be those of the circle of radius 1 (C128_constant, C128_witness); on a straight curve, or for a zero offset, it is 0/0 (C128_straight).
* C131 Surface::values(u_lst,v_lst) reads v_lst past its end when it is shorter than u_lst, the assert on the sizes being compiled out; the Python binding passes its lists to it without a test of their sizes (C131_short, C131_witness).
* C132 the deprecated unify_knots(pk1,pk2,degree) (`gbs/bsctools.h:295-313`, marked as suspicious there) inserts zero times a knot that has the same multiplicity in both curves, which changes the poles: a curve is changed by its own knots (C132_self_witness). The difference of the multiplicities is unsigned: a knot of greater multiplicity in the first curve is inserted up to the degree (C132_unify, C132_more_witness).
* C133 surface_triangle_deviation (`inc/topology/baseGeom.h:200-218`) compares oriented normals: a triangle that lies on a plane has the deviation 2, the greatest possible, when its points turn in the other direction than the parameters (C133_plane), and aligned points give 0/0 (C133_aligned).
* C134 is_ccw (`inc/topology/halfEdgeMeshGeomTests.h:54-65`) is documented to be negative for clockwise vertices and zero for aligned ones; it is the boolean of are_ccw as a number: 0 for clockwise ones, 1 for aligned ones, and only the first three vertices of a larger face count (C134_face, C134_witness).

## Properties

Status `partial` means that the statement of `properties.jsonl` is not proved as it stands; the note says why.

| id | property | status | theorems | note |
|----|----------|--------|----------|------|
| C01 | Span search is total and correct | proved | `C01_find_span`, `C01_find_span_nonempty`, `C01_empty_span_witness` | With end multiplicity above p+1 (accepted by the constructor) the last span is empty: witness theorem. |
| C02 | The p+1 span basis values are the Cox-de Boor basis functions | proved | `C02_basis_funcs` |  |
| C03 | Partition of unity and non-negativity of the basis | proved | `C03_partition_of_unity` |  |
| C04 | Curve value is the sum of basis times poles | proved | `C04_value_eq_sum` | Above degree 24 needs knots separated by more than the tolerance and a clamped end. |
| C05 | Convex hull property | proved | `C05_convex_combination`, `C05_coordinate_bounds` |  |
| C06 | Clamped ends interpolate the end poles | proved | `C06_clamped_ends` |  |
| C07 | All value-evaluation algorithms agree | proved | `C07_algorithms_agree`, `C07_deboor_cox_agrees`, `C07_degree_zero_witness` | At degree 0 the summation algorithm throws: witness theorem. |
| C08 | value(u,d) is the d-th derivative | proved | `C08_derivative`, `C08_high_order_zero`, `C08_iteratedDeriv` |  |
| C09 | All derivatives at once agree with one-by-one evaluation | proved | `C09_derivatives` |  |
| C10 | Out-of-bounds evaluation is reported, in-bounds evaluation never is | proved | `C10_out_of_bounds`, `C10_out_of_bounds_derivatives`, `C10_out_of_bounds_rational`, `C10_in_bounds_ok` |  |
| C11 | Constructor accepts exactly the size-consistent curves | proved | `C11_constructor`, `C11_accepted`, `C11_constructor_mult`, `C11_unsorted_accepted_witness` | Sortedness is only checked up to the tolerance: witness theorem. |
| C12 | Unit weights make a rational curve equal to the polynomial one | proved | `C12_equal_weights` | Orders up to 60 (the machine binomials do not divide by zero there). |
| C13 | Scaling all weighted poles leaves a rational curve unchanged | proved | `C13_scale_poles`, `C13_scale_weights`, `C13_scaled_weights_witness` | All outcomes, for any data. scaled_weights ignores the mean it is given (witness). |
| C14 | Weights merge/separate round trip | proved | `C14_separate_merge`, `C14_merge_separate`, `C14_sizes`, `C14_null_weight_witness` |  |
| C15 | Rational derivatives obey the quotient rule | proved | `C15_quotient_rule`, `C15_derivatives`, `C15_iteratedDeriv`, `C15_order_21_witness`, `C15_null_weight_witness` | Orders up to 20; at order 21 the size_t factorial overflows (witness). The weight must not vanish (witness). |
| C16 | Knot insertion does not change the curve | proved | `C16_insert_keeps_curve`, `C16_outside_witness` | For parameters strictly inside of the domain and at least one insertion; all derivation orders. Outside of the knots the code accesses out of its arrays: witness theorem. |
| C17 | Knot insertion result shape | proved | `C17_insert_shape` |  |
| C18 | Full-multiplicity insertion exposes the curve point as a pole | proved | `C18_insert_full_pole`, `C18_insert_ends` |  |
| C19 | Inserting a knot zero times is the identity | partial | `C19_insert_zero_partial`, `C19_insert_zero_witness` | The code violates the property: inserting zero times a knot of multiplicity below p changes the poles (witness). Holds at full multiplicity. |
| C20 | Trimming keeps the geometry | partial | `C20_trim_partial`, `C20_decreasing_order`, `C20_decreasing_order_witness` | Proved for u1 < u2, degree at least 1 and multiplicity at most p at the cut. False for u1 > u2 (negation proved): the stored bounds are then decreasing and no parameter can be evaluated. |
| C21 | Reversal mirrors the parametrization | proved | `C21_reverse`, `C21_after_soft_trim`, `C21_soft_trim_witness` | Mirror about the end knots. After a non permanent trim the bounds are not mirrored (theorem and witness). |
| C22 | changeBounds is an affine reparametrization | proved | `C22_change_bounds` |  |
| C23 | Flat/unflat knot round trip | proved | `C23_flat_unflat`, `C23_unflat_flat` |  |
| C24 | Bezier degree elevation keeps the curve | proved | `C24_increaseBezier`, `C24_increaseBezier_overflow` | Elevated degree up to 12; from 13 on the int factorial overflows (theorem). |
| C25 | Derivative curve and integral curve | proved | `C25_build_derivate`, `C25_build_integrate`, `C25_derivate_div_zero` | build_derivate needs interior multiplicities at most p: otherwise the code divides by zero (theorem). |
| C26 | NURBS ellipse lies on the ellipse | proved | `C26_ellipse`, `C26_quarters`, `C26_circle` | Any square root function with sqrt(x)^2 = x >= 0 (instance over the reals), any dimension, any non-null radii; also the quarter points and the quadrants. Exact arithmetic. |
| C27 | Surface value is the tensor-product sum | proved | `C27_value_eq_sum`, `C27_mixed_derivative`, `C27_coordinate_bounds`, `C27_out_of_bounds`, `C27_derivatives_table`, `C27_constructor`, `C27_constructor_witness` | Above degree 24 the code switches to recursive basis functions and the knots must be separated by more than the tolerance. The constructor accepts ill-formed sizes because of unsigned wrap-around (witness). |
| C28 | Inverting U and V twice is the identity and swaps the parameters | proved | `C28_invertUV_swaps`, `C28_invertUV_involutive`, `C28_transpose_poles`, `C28_transpose_poles_blocked`, `C28_transpose_involutive`, `C28_blocked_empty_witness` | The double exchange resets the bounds to the end knots, and is the identity when they are the end knots. |
| C29 | Surface knot insertion keeps the surface | proved | `C29_insertKnotU`, `C29_insertKnotV` |  |
| C30 | Iso-parametric curves lie on the surface | proved | `C30_isoU`, `C30_isoV`, `C30_isoU_rational`, `C30_isoV_rational` |  |
| C31 | pole(i,j) designates the pole of U-index i and V-index j | partial | `C31_pole_partial`, `C31_rows`, `C31_pole_witness` | False of the code: pole(i,j) exchanges the indices (witness). What it returns, and that polesU/polesV are the rows and columns, is proved. |
| C32 | Parallel evaluation and batch building are schedule independent | proved | `C32_build_batch`, `C32_build_batch_ends`, `C32_values`, `C32_terminate_witness` | Two atomic steps per task, any interleaving. When an element throws above the gate, values() ends in std::terminate, unlike below it (C32_values, witness). |
| C33 | Uniform ranges | proved | `C33_make_range`, `C33_make_range_2d`, `C33_make_range_3d`, `C33_make_range_int` |  |
| C34 | Curve parametrization is increasing | proved | `C34_parametrization`, `C34_normalized`, `C34_adimension_witness` | Points in R^d with the Euclidean distance. A polyline not longer than the tolerance is left unnormalized (second part of C34_normalized, witness). |
| C35 | Band LU solves the system it factorizes | proved | `C35_band_lu`, `C35_refused_witness` | Every size, bandwidths, tolerance >= 0 and right-hand side; the accepted factorization gives the unique solution. Exact arithmetic. |
| C36 | Interpolation passes through its data | proved | `C36_build_poles`, `C36_interpolate_cn`, `C36_interpolate_nc`, `C36_interpolate_points`, `C36_interpolate_derivatives`, `C36_build_poles_constraints`, `C36_interpolate_bounds`, `C36_constraints_unisolvent`, `C36_bounds_unisolvent` | Degrees up to 24 (above, the code never uses the band). When the band is refused, Eigen is only asked to solve regular systems: the systems for points and derivatives are proved regular (C36_interpolate_points, C36_interpolate_derivatives); arbitrary constraints must determine the poles (C36_constraints_unisolvent, C36_bounds_unisolvent). C36_build_poles_constraints and C36_interpolate_bounds are the versions that assume the solution of the given system. |
| C37 | Building a face loop yields a closed ring | proved | `C37_make_loop`, `C37_make_face` |  |
| C38 | Edge flip preserves mesh validity | proved | `C38_flip` |  |
| C39 | Adding a face on a boundary edge preserves mesh validity | proved | `C39_add_face`, `C39_add_face_refused` |  |
| C40 | Fan re-triangulation closes the cavity | proved | `C40_add_vertex`, `C40_add_vertex_face`, `C40_add_vertex_empty` | The loop must not be empty: the code reads the back of an empty list (C40_add_vertex_empty). |
| C41 | Splitting an edge leaves no crack | partial | `C41_split_partial`, `C41_crack` | The mesh stays valid, but the property is false of the code: for every interior edge the half next to the start has no opposite on either side and the vertex designates an edge that does not end at it (C41_crack). Half-edges whose opposite is in the same face are excluded. |
| C42 | Point insertion conserves the meshed area and orientation | proved | `C42_insert`, `C42_inserted`, `C42_refused` | The meshes are those in which all the triangles are counter-clockwise. A point of an outer edge is refused (C42_refused), although the comment of the code says that the fallback always succeeds. |
| C43 | Closed-loop extraction is a partition into chains | proved | `C43_take_closed_loops`, `C43_oriented_boundaries` |  |
| C44 | Boundary test of a vertex | partial | `C44_is_boundary_partial`, `C44_inverted` | is_boundary answers the opposite: it is false for the vertices of open fans (C44_inverted). |
| C45 | Geometric predicates | proved | `C45_orient`, `C45_in_circle`, `C45_in_triangle`, `C45_barycentric`, `C45_in_triangle_barycentric`, `C45_circle_center`, `C45_compute_uv`, `C45_min_max`, `C45_flat_triangle_witness`, `C45_barycentric_comment_witness` | Exact arithmetic. Triangles are not flat: for flat ones in_triangle accepts points outside (witness). |
| C46 | Frame-to-frame transformation | partial | `C46_single_frame`, `C46_two_frames`, `C46_from_reference_axes_partial`, `C46_witness` | False of the code (witness): it composes with the matrix of the first frame instead of its inverse. The exact condition under which it is right is proved, and the transformation of one frame is right. |
| C47 | Affine maps commute with curves | proved | `C47_curve`, `C47_rational`, `C47_surface`, `C47_rational_surface`, `C47_translate`, `C47_translate_homogeneous`, `C47_scale`, `C47_scale_coord`, `C47_rotate2`, `C47_rotate3`, `C47_matrix`, `C47_null_weight_witness` | Rational geometry: no null weight (witness otherwise), derivatives up to order 60. Derivatives are transformed by the linear part. |
| C48 | Wrapped curves | partial | `C48_reversed`, `C48_trimmed`, `C48_extended`, `C48_composite`, `C48_composite_below`, `C48_reversed_deriv`, `C48_composite_deriv`, `C48_extended_tangent`, `C48_extended_clamped_witness`, `C48_reparametrized`, `C48_reversed_bspline` | Values and derivatives of all the wrappers are proved, but the derivative of a clamped extension beyond the bounds is false of the code (witness); a composite curve below its bounds leaves the array (theorem). |
| C49 | Knot removal | proved | `C49_undo_insertion`, `C49_undo_insertion_tol`, `C49_removes`, `C49_counts`, `C49_curve_counts`, `C49_num_above_multiplicity_witness`, `C49_boolean_overload_negative`, `C49_boolean_overload_witness` | The two overloads used by the library. The boolean overload is wrong (negative theorem and witness); asking for more removals than the multiplicity leaves the arrays (witness). |
| C50 | Making curves compatible | proved | `C50_unify_knots`, `C50_unify_degree`, `C50_unify`, `C50_unify_degree_overflow`, `C50_close_knots_witness` | Degrees up to 12 for the degree step (overflow theorem from 13 on), 24 for the knots; knots of different curves must be equal or further apart than the tolerance (witness when not). |
| C51 | Ordered insertion | partial | `C51_insert_ordered`, `C51_insert_unique_partial`, `C51_duplicate_below_witness` | insert_ordered is proved. insert_unique_ordered violates the property: an equal knot just below, within the tolerance, is not seen (witness); the exact condition of insertion is proved. |
| C52 | Continuity at the knots | proved | `C52_continuity` |  |
| C53 | Rational convex hull | proved | `C53_rational_convex_combination`, `C53_weight_pos` |  |
| C54 | Generated knot vectors are admissible | proved | `C54_uniform_knots`, `C54_averaged_knots`, `C54_averaged_knots_repeated`, `C54_mult_knots`, `C54_degree_zero_witness`, `C54_too_few_poles` |  |
| C55 | Derivatives of rational surfaces follow the quotient rule | proved | `C55_value`, `C55_leibniz` |  |
| C56 | Reversal, change of bounds and trimming of surfaces | partial | `C56_changeUBounds`, `C56_changeVBounds`, `C56_reverseU`, `C56_reverseV`, `C56_trimU_partial`, `C56_trimV_partial`, `C56_trimU_decreasing_witness` | Degrees up to 24 (the evaluation without recursion). Trimming: increasing parameters only, the property being false for decreasing ones (witness); a derivative at the new last parameter needs the continuity of that order. |
| C57 | Error of a knot removal within tolerance | proved | `C57_removal_error`, `C57_removal_error_real` | Any number of removals up to the multiplicity; the real version uses the norm of the space. |
| C58 | Degree elevation keeps the curve | proved | `C58_increaseDegree`, `C58_increaseDegree_rational`, `C58_increaseDegree_overflow` | Elevated degree up to 12; from 13 on the int factorial overflows for every such curve (theorem). |
| C59 | Degree elevation of surfaces | proved | `C59_increaseDegreeU`, `C59_increaseDegreeV` | Degrees up to 12 after elevation (the other direction up to 24). |
| C60 | Segments | proved | `C60_segment`, `C60_coincident_witness` | Coincident points with the curvilinear parameter give a degenerate curve whose evaluation divides zero by zero (witness). |
| C61 | Curves on surfaces | partial | `C61_first`, `C61_second_partial`, `C61_second_witness` | Value and first derivative are right; the second derivative is false of the code (witness), its exact error is proved. |
| C62 | Curvilinear derivatives and offset curves | partial | `C62_curvilinear`, `C62_offset2d`, `C62_offset3d_witness` | Curvilinear derivatives and plane offsets are proved; the derivative of the space offset is false of the code (witness). |
| C63 | Analytic circles | partial | `C63_circle2d`, `C63_circle3d`, `C63_circle_axis_partial`, `C63_axis_witness` | Proved for the constructors with a frame; the constructor from an axis gives a wrong radius or plane in general (witness, exact condition proved). |
| C64 | Surfaces of revolution | partial | `C64_revolution_partial`, `C64_angle_derivatives_partial`, `C64_distance`, `C64_origin_witness` | Proved for frames at the origin; false of the code for other origins (witness). |
| C65 | Analytic lines | proved | `C65_line` | The bounds are those given by numeric_limits: with min() > 0 the first point is outside of them. |
| C66 | Segment predicates | proved | `C66_seg_seg`, `C66_seg_ray`, `C66_on_segment`, `C66_point_segment_witness` | A segment reduced to a point contains no point for on_segment (witness). |
| C67 | Point in polygon and orientation of loops | proved | `C67_is_inside`, `C67_edges_ccw`, `C67_edges_area`, `C67_sphere_center_witness` | The region is given by a triangulation; that every simple polygon has one is not proved. The witness shows that sphere_center is wrong. |
| C68 | Recovery of constrained edges | partial | `C68_present_partial`, `C68_never_recovers` | The property is false of the code: the convexity test has its arguments in clockwise order and rejects all pairs of counter-clockwise triangles, so no edge is ever flipped and a missing edge is never recovered (C68_never_recovers, for all meshes). Edges already there are found. |
| C69 | Insertion keeps triangulations Delaunay | proved | `C69_insert` |  |
| C70 | Delaunay triangulation of a list of points | proved | `C70_delaunay`, `C70_inserted`, `C70_hull_missed` | Predicates are exact in the model. The property is about what the code does; triangles whose circle has a corner of the encompassing rectangle may be missing, up to all of them (C70_hull_missed). |
| C71 | Removal of the faces of a vertex | proved | `C71_remove_faces` |  |
| C72 | Repair of the links of the vertices | proved | `C72_repair` |  |
| C73 | Faces around a vertex and half-edge between two vertices | proved | `C73_faces`, `C73_find` |  |
| C74 | Exact sign of the orientation predicate | proved | `C74_orient2d_sign`, `C74_orient2d_range`, `C74_orient2d_double`, `C74_orient2d_underflow` | The documentation claims it without a condition on the magnitudes, which is false for double because of underflow (C74_orient2d_underflow). |
| C75 | Error-free transformations | proved | `C75_two_sum`, `C75_two_diff`, `C75_fast_two_sum`, `C75_two_product`, `C75_expansion_sum` | Exponents without bounds; C74_orient2d_range shows that in the range of C74 a bounded exponent makes no difference. |
| C76 | The interpolation systems are regular | proved | `C76_unique_averaged`, `C76_unique_hermite` | Existence and uniqueness of the interpolant in exact arithmetic (Schoenberg-Whitney), without a solver. |
| C77 | Surfaces through a grid of points and through constraints | proved | `C77_extract_u`, `C77_extract_v`, `C77_extract_throws`, `C77_build_poles_grid`, `C77_build_poles_throws`, `C77_interpolate_grid`, `C77_interpolate_throws`, `C77_build_poles_constraints`, `C77_interpolate_constraints`, `C77_constraints_throw`, `C77_grid_unisolvent` | Degrees 1 to 24. The dense solver is only assumed to solve regular systems; the grid system is proved regular, the constraints are assumed to determine the poles. |
| C78 | Least-squares approximation by curves | proved | `C78_approx_knots`, `C78_approx_bound_fixed`, `C78_approx_with`, `C78_approx_uniform`, `C78_determines`, `C78_sizes` | Degrees up to 24 (from 1 for fixed ends). The Cholesky solver is only assumed to solve regular systems; the normal system is proved regular when the parameters determine the poles, and C78_determines gives a criterion on the knots and parameters. |
| C79 | Refinement of an approximation | partial | `C79_refine`, `C79_refine_not_worse`, `C79_refine_progress_partial`, `C79_refine_none`, `C79_approx_refined`, `C79_negative_parameters`, `C79_as_many_poles_as_points` | The progress is only true for parameters that are not negative: with negative ones the code never refines (C79_negative_parameters, for all inputs). At least five points and more points than poles; otherwise an exception can be thrown (C79_as_many_poles_as_points). The result is least squares when the parameters determine its poles. |
| C80 | Least-squares approximation by surfaces | proved | `C80_approx_grid`, `C80_approx_constraints`, `C80_grid_determines`, `C80_least_iff`, `C80_sizes`, `C80_short_grid`, `C80_too_few_parameters` | Degrees up to 24. The solvers are only assumed to solve regular systems and to make the residual orthogonal when the rows determine the unknowns. Two ill-posed cases are not refused: less points than the grid has (C80_short_grid, read past the end) and less parameters than poles in one direction (C80_too_few_parameters). |
| C81 | Junction of two curves | proved | `C81_join_preserves`, `C81_join_gap`, `C81_join_rational`, `C81_join_mixed`, `C81_soft_trim_witness` | Degrees 1 to 12, distinct knots farther apart than the knot tolerance. For rational curves the weights at the joined ends are not null; for a polynomial and a rational curve the derivatives go up to order 60. The documentation of join does not require the ends to coincide: C81_join_gap says what happens when they do not. Curves with bounds inside their knots are joined at their end knots (C81_soft_trim_witness). |
| C82 | Extension of a curve | partial | `C82_extention`, `C82_extended_at_end`, `C82_extended_at_end_rational`, `C82_extended_at_start`, `C82_extended_at_start_rational`, `C82_extended_end_partial`, `C82_extended_end_rational_partial`, `C82_extended_start_rational_partial`, `C82_extended_start_partial`, `C82_natural_ignored`, `C82_overshoot_witness` | Degrees 1 to 12, distinct knots farther apart than the knot tolerance, a distance that is not too small for the tolerance. The dense solver is only assumed to solve regular systems; the system of an extension is proved regular. A rational curve has a non-null weight at the extended end and is preserved up to the projection. The part of the property that the extension goes on at the speed of the curve is false of the code (C82_overshoot_witness): the parameter interval is the square of the distance divided by the speed. Below degree 3 the natural end is ignored (C82_natural_ignored). |
| C83 | Loft of a list of sections | proved | `C83_unify_again`, `C83_loft_flat`, `C83_loft_params`, `C83_averaged_params`, `C83_loft_auto`, `C83_loft_rational`, `C83_loft_sizes`, `C83_loft_repeated`, `C83_loft_single` | Degrees 1 to 12 along the sections, up to 24 across; distinct knots farther apart than the knot tolerance. The dense solver is only assumed to solve regular systems; the system is proved regular. Without given parameters consecutive sections must differ somewhere, or all be the same: a repeated section gets the parameter of the previous one and the system is singular (C83_loft_repeated), a single section throws (C83_loft_single), parameters in a wrong number never give a surface (C83_loft_sizes). |
| C84 | Junction and splitting of surfaces | partial | `C84_join`, `C84_join_gap`, `C84_join_refuses`, `C84_join_weights_witness`, `C84_split_u`, `C84_split_v`, `C84_split_bound_witness` | Degrees 1 to 12 along U, distinct knots farther apart than the knot tolerance, exactly equal knots along V for the junction; the points and derivatives are those of the homogeneous surface when it is rational. The property is false of the code for rational surfaces whose borders have the same points with other weights (C84_join_weights_witness), and for a split at a bound, which the assertion lets through (C84_split_bound_witness). |
| C85 | Unification of the knots of a set of surfaces | proved | `C85_unify_surfaces`, `C85_info`, `C85_degrees_witness`, `C85_close_knots_witness` | Distinct knots, once brought to the bounds of the first surface, farther apart than the knot tolerance: closer knots stay different (C85_close_knots_witness). Surfaces of different degrees are accepted by the code and keep different knots (C85_degrees_witness). C85_info is about what the function is called with. |
| C86 | Gordon surface of a network of curves | partial | `C86_gordon_partial`, `C86_gordon_checked`, `C86_not_touching`, `C86_gordon_overhang_witness` | Proved for families whose curves have the same bounds, cross exactly, and whose crossings go from bound to bound; degrees 1 to 12, distinct knots farther apart than the knot tolerance. The minimisation that finds the crossings is a parameter and the dense solver is only assumed to solve regular systems. What is missing is false of the code: curves that go beyond the crossings are accepted, and the surface does not contain them (C86_gordon_overhang_witness); with parallel algorithms the documented exception for curves that do not touch ends the program (C86_not_touching). |
| C87 | Loft of sections along a spine | partial | `C87_spine_loft_partial`, `C87_spine_loft_rational_partial`, `C87_two_sections`, `C87_three_sections`, `C87_uneven_sections`, `C87_uneven_chord`, `C87_too_few` | Proved when points and tangents at the parameters of the sections determine the curves of the degree and knots across: always for two sections (C87_two_sections), and for three when the second one is strictly between 1/5 and 3/5 of the interval (C87_three_sections). What is missing is false of the code: for three sections outside of this interval the system is singular (C87_uneven_sections), and in general no surface of those degree and knots has the sections and the tangents (C87_uneven_chord). The minimisation that finds the points of the spine is a parameter and the dense solver is only assumed to solve regular systems; degrees 1 to 12, distinct knots farther apart than the knot tolerance. |
| C88 | Extension of a surface to a curve | partial | `C88_extention_partial`, `C88_extended_partial`, `C88_short_curve`, `C88_other_knots_witness`, `C88_rational_witness` | Proved for polynomial surfaces and curves with the degree and knots of the surface along V, a nonzero tangent across the border, a mean step greater than the knot tolerance times the degree, and, for the extended surface, degrees 1 to 12 along U and distinct knots farther apart than the knot tolerance. The dense solver is only assumed to solve regular systems and the norm of points is a parameter. What is missing is false of the code: for rational surfaces (C88_rational_witness), for curves with other knots (C88_other_knots_witness) and for curves with fewer poles, which are read out of bounds (C88_short_curve). |
| C89 | Extension of a surface by a length at one of its borders | partial | `C89_length_curve`, `C89_determines`, `C89_exact`, `C89_corners`, `C89_extended_partial`, `C89_at_u_start_partial`, `C89_at_v_end_partial`, `C89_at_v_start_partial`, `C89_length_witness`, `C89_uneven_witness` | Proved for polynomial surfaces of degrees 1 to 12 across the border, with distinct knots farther apart than the knot tolerance, a nonzero tangent across the border, and parameters that determine the curves on the knots along the border, for instance when its spans are wide enough (C89_determines). The dense solver is only assumed to solve regular systems; the norm of points is a parameter, even for the extensions at a start. What is missing is false of the code: the end border is at the length only at the corners and where a curve on the knots can follow it (C89_length_witness, C89_exact), and with uneven knots along the border the system is singular (C89_uneven_witness). Rational surfaces are not covered: C88_rational_witness shows that their extension leaves the border. |
| C90 | Moving the poles of a curve to meet constraints | partial | `C90_delta`, `C90_delta_least`, `C90_point`, `C90_fixed_keeps`, `C90_point_fixed`, `C90_fixed_end`, `C90_constraints_partial`, `C90_no_constraints`, `C90_constraints_witness` | Degrees at least 1, distinct knots farther apart than the knot tolerance; the dense solver is only assumed to solve regular systems. moved_to_point and moved_to_constraints_delta are proved. moved_to_constraints is false of the code (C90_constraints_witness): it adds the constraints to the values instead of reaching them (C90_constraints_partial). The ends cannot be reached when they are fixed (C90_fixed_end). |
| C91 | Moving the poles of a surface to meet constraints | partial | `C91_delta`, `C91_point`, `C91_point_fixed`, `C91_fixed_keeps`, `C91_constraints`, `C91_constraints_partial`, `C91_empty`, `C91_orders_witness` | Degrees 1 to 24, distinct knots farther apart than the knot tolerance; the dense solver is only assumed to solve regular systems. Proved for constraints without derivation, no more than the moved poles. False of the code for constraints with derivatives, whose orders are ignored by the matrix (C91_orders_witness); what is obtained is proved (C91_constraints_partial). |
| C92 | Meshes by transfinite interpolation contain the curves of the network | partial | `C92_blend`, `C92_mesh`, `C92_params`, `C92_contains`, `C92_contains_each`, `C92_sizes`, `C92_sizes_step`, `C92_sizes_each`, `C92_sizes_number`, `C92_short_segment`, `C92_short_segment_witness` | Proved for the meshes from curves (both overloads, with and without derivatives, with and without slope control, blends of degree at most 24) when every segment gets two nodes or more. The sparse solver is only assumed to solve regular systems; the values, lengths and inverse curvilinear abscissas of the curves and the rounding are parameters. What is missing is false of the code: a segment shorter than half the step gets one node, and the list of its parameters is written out of bounds (C92_sizes, C92_short_segment, C92_short_segment_witness). |
| C93 | Discretization by deviation | partial | `C93_params`, `C93_ends`, `C93_points`, `C93_curve`, `C93_grid`, `C93_few`, `C93_closed_chord`, `C93_more_than_max`, `C93_max_witness`, `C93_twice_witness`, `C93_iso_partial`, `C93_iso_no_end` | The norms of points and of vector products are parameters (not negative, null for a null vector). Proved for curves with at least two first parameters, and for grids of surfaces. What is missing is false of the code: the maximum number of points is only compared with the number of the first parameters (C93_more_than_max, C93_max_witness), a knot that is one of them comes twice (C93_twice_witness), a chord with the same point at both ends is never refined (C93_closed_chord), one parameter cannot be asked (C93_few), and along iso-curves of surfaces the refinement may never end (C93_iso_no_end); when it ends the list is right (C93_iso_partial). |
| C94 | Elliptic smoothing of structured meshes | partial | `C94_iterations`, `C94_kept`, `C94_unique`, `C94_runs`, `C94_fixed`, `C94_parallelograms`, `C94_degenerate`, `C94_degenerate_witness`, `C94_block_too_wide`, `C94_python`, `C94_python_witness` | Proved for the C++ function and blocks inside the grid, in exact arithmetic. What is missing is false of the code: blocks that reach the end of the lines are not refused (C94_block_too_wide), a folded node divides by zero (C94_degenerate), and the Python function ignores the number of iterations (C94_python, C94_python_witness). |
| C95 | Wires are connected chains of edges | partial | `C95_refused`, `C95_added`, `C95_add`, `C95_order`, `C95_on_curves`, `C95_total`, `C95_bounds`, `C95_one`, `C95_edges`, `C95_polygon`, `C95_tessellate`, `C95_not_closed`, `C95_not_connected`, `C95_shared`, `C95_tessellate_trimmed` | The search of the nearest point, the distance and the discretization are parameters; the nearest point is not farther than the vertices of the edge. Proved for edges that are not yet in the wire and have a tolerance not less than its own; that edges stay near their curves and that nothing is undefined is proved for all. What is missing is false of the code: an edge with a smaller tolerance is added without being joined (C95_not_connected), an edge joined at one end and only near the other does not close the wire (C95_not_closed), an edge in two wires disconnects one of them (C95_shared), the tessellation ignores the bounds of the edge (C95_tessellate_trimmed). Wire::close does not compile. |
| C96 | Connections of two curves have the announced order of contact | partial | `C96_c2`, `C96_c2_scaled`, `C96_c3`, `C96_cn`, `C96_ellipse`, `C96_ellipse_degenerate`, `C96_parallel`, `C96_c2_plane`, `C96_sides`, `C96_c3_plane`, `C96_through`, `C96_through_parallel`, `C96_low_degree`, `C96_touching` | Proved for curves given by any evaluation; the norm is a parameter and the solvers are only assumed to solve regular systems; the systems are proved regular. What is missing is false of the code: degrees not above the order (C96_low_degree), ends that touch (C96_touching), parallel tangents with the coefficient e (C96_parallel, C96_through_parallel, C96_ellipse_degenerate), and sides that are not taken, whose second derivative has the wrong sign (C96_sides). |
| C97 | Constrained triangulations cover the inside of the polygon | partial | `C97_polygon_partial`, `C97_leaks`, `C97_misses` | Proved for points that are all different, when every side of the rings is a side of a triangle of the Delaunay triangulation and the triangles around each vertex make one fan; in exact arithmetic. What is missing is false of the code: a side which is not there is not recovered and the fill leaks through it (C97_leaks, C68_never_recovers), and triangles of the hull are missing when a corner of the encompassing rectangle is in their circle (C97_misses). |
| C98 | Base meshes of surfaces cover the rectangle of the parameters | partial | `C98_rectangle`, `C98_boundary`, `C98_base_partial`, `C98_out_of_bounds`, `C98_uncovered` | The discretization of the sides is that of C93. That any points of the border of a rectangle with its corners are triangulated over exactly the rectangle is proved for encompassing rectangles enlarged by at most 100 times (the default is 10). What is missing is false of the code: meshSurfaceBoundary returns the point (0,0) twice after the points of the border, so the mesh is that of the rectangle only if the origin is on its border (C98_out_of_bounds, C98_uncovered). |
| C99 | Refinements of meshes of surfaces keep the region and the Delaunay condition | partial | `C99_refine_partial`, `C99_surface_partial`, `C99_empty`, `C99_not_met`, `C99_dummy` | Proved for any criterion, in exact arithmetic. What is missing is false of the code: the loop ends after an insertion that follows the last test, so the mesh returned may not meet the criterion (C99_not_met), the origin is inserted in a mesh whose triangles share no side (C99_dummy), and no triangle to refine is undefined behaviour (C99_empty). The mesh of a surface is proved to cover the rectangle when the origin is on its border (C98). The other overload, which smooths, is that of C102. |
| C100 | Cutting a mesh by a boundary leaves and returns the right parts | partial | `C100_internal_partial`, `C100_external_partial`, `C100_add_inner_partial`, `C100_add_outer_partial`, `C100_away`, `C100_side_missed`, `C100_links_taken`, `C100_hole` | Proved for boundaries whose sides cut no face, and for the rings added to a Delaunay triangulation when each side has a circle that leaves the other points outside, which is proved to imply it; the tolerance must not reach the centroids, which always holds for a null one (C100_away). What is missing is false of the code: a side that is not a Delaunay edge is not recovered (C100_side_missed), the faces returned are not correctly linked (C100_links_taken), and delaunay2DBoyerWatson with an inner boundary does not insert its points (C100_hole). |
| C101 | Curves and surfaces are read from a JSON document as they were written | partial | `C101_curve`, `C101_rational`, `C101_surface`, `C101_rational_surface`, `C101_surface_exact`, `C101_exact`, `C101_revolution`, `C101_surface_three`, `C101_only`, `C101_thrown`, `C101_lost`, `C101_dimension`, `C101_merged`, `C101_zero_weight` | Proved for every curve and surface made by the constructors, with degrees below 2^32, and curves on surfaces of any nesting. The text of the document (rapidjson) is not modelled. What is missing is false of the code: knots within the tolerance are merged (C101_merged), poles of weight zero are lost (C101_zero_weight), composite, trimmed and offset curves are written but cannot be read (C101_only, C101_thrown) and the surface of a curve on a surface of revolution is lost (C101_lost). |
| C102 | Refinement with smoothing moves vertices to the middle of their neighbours and restores the Delaunay condition | partial | `C102_refine_partial`, `C102_neighbours`, `C102_smoothing`, `C102_not_restored`, `C102_exact_criterion` | Proved for any criterion and any order of the half-edges, in exact arithmetic. What is missing is false of the code: the neighbours returned are copies of the vertex itself, so nothing is smoothed (C102_neighbours, C102_smoothing), the loop that should restore the Delaunay condition flips only the edges whose four points are on a circle (C102_not_restored), a point that is not inserted is undefined behaviour, and with a null tolerance the loop never ends early (C102_exact_criterion). The qualities of the faces that are flipped are not updated by the code, so the triangle chosen may not be the worst. |
| C103 | Nearest points of curves, surfaces and points are in the bounds and no farther than the samples | partial | `C103_curve_point_from_partial`, `C103_curve_point_partial`, `C103_surf_point_from_partial`, `C103_surf_point_partial`, `C103_curves_from_partial`, `C103_curves_partial`, `C103_surf_curve_from_partial`, `C103_surf_curve_order`, `C103_surf_curve_start`, `C103_lines`, `C103_deviation_partial`, `C103_coordinates_partial`, `C103_coordinates_negative`, `C103_second_derivative`, `C103_squared`, `C103_touching`, `C103_not_curvature`, `C103_gradient_point`, `C103_gradient_surface`, `C103_gradient_curves`, `C103_gradient_surf_curve`, `C103_gradient_plane`, `C103_gradient_curvature` | NLopt is a parameter, assumed to stay in the box and not to go up from the first value. The number returned is proved to be the square of the distance (C103_squared, C103_touching). False of the code: the gradients of two curves and of a surface and a curve, the first values of the search of a surface and a curve (it throws or starts elsewhere), the coordinates where they are negative, and the curvature (C103_not_curvature). |
| C104 | Curvilinear abscissae give the parameters of the lengths, and spread points along curves | partial | `C104_polynomial`, `C104_line`, `C104_law`, `C104_law_exact`, `C104_params`, `C104_constant_speed`, `C104_discretize`, `C104_length`, `C104_length_derivatives`, `C104_adaptive_partial`, `C104_never_adapts`, `C104_length_function_partial`, `C104_not_increasing` | The quadrature is a parameter (exact in C104_length); the sparse solver is only assumed to solve regular systems; degrees up to 24. What is missing is false of the code: the law is not increasing and leaves the bounds (C104_not_increasing), and the adaptive discretization is undefined as soon as an interval has to be cut, because of an invalidated iterator (C104_adaptive_partial), which never happens with exact lengths (C104_never_adapts). |
| C105 | The area of meshes is the sum of their triangles, and the criteria of refinement give the worst of a face | partial | `C105_area`, `C105_area_insert`, `C105_sag`, `C105_gap`, `C105_size`, `C105_turn`, `C105_deviation`, `C105_deviation_plane`, `C105_deviation_mesh`, `C105_shape`, `C105_edge_split`, `C105_shape2`, `C105_shape2_equilateral`, `C105_middle_inserted`, `C105_centroid_inserted`, `C105_worst_inserted`, `C105_progress` | Faces are triangles in the plane of the parameters; exact arithmetic. DistanceMeshSurface does not compile and is not modelled. What is missing is false of the code: the deviation of the normals takes the corners in the other order and is 2 instead of 0 on a plane (C105_deviation_plane, C105_deviation_mesh), TriangleShape2 compares scalar products that are not normalised (C105_shape2, C105_shape2_equilateral), and with a library that compares with == TriangleShapeEdgeSplit takes the first side (C105_edge_split). |
| C106 | Approximations of curves have their ends, their parameters, and are polynomials when they are | partial | `C106_determines`, `C106_samples`, `C106_tol_poles`, `C106_tol`, `C106_between`, `C106_between_witness`, `C106_mapped`, `C106_exact`, `C106_polynomial`, `C106_knots`, `C106_mode`, `C106_mode_poles`, `C106_chord_bounds`, `C106_to_bs_curve`, `C106_bounds_witness`, `C106_uniform`, `C106_uniform_constant_speed` | The Cholesky solver is only assumed to answer and to solve regular systems; degrees up to 24; fewer poles than samples, at least five samples. That the tolerance is met is not proved, the code does not ensure it. What is missing is false of the code: the approximation between two parameters is that of the whole curve (C106_between, C106_between_witness), and to_bs_curve and the approximations with a mode do not keep the bounds of the parameters (C106_to_bs_curve, C106_bounds_witness). |
| C107 | Points on an edge of a mesh have the number, the ends and the steps asked for | partial | `C107_compute`, `C107_new`, `C107_even`, `C107_steps`, `C107_steps6`, `C107_even_steps`, `C107_leaves` | Numbers of points below 2^53. The sparse solver is only assumed to solve regular systems, the quadrature to give lengths that add up. The abscissae are those of the law of 30 samples, exact at them (C104). What is missing is false of the code: computing points before their number is set is undefined (C107_new), and the law of given steps can leave the curve, so that there are no points (C107_leaves). With less than 4 points (6 with ratios) the parameters of the law are repeated or not sorted: not claimed. |
| C108 | Offsets of surfaces are at the distance asked for along the normal, and their approximation is the nearest surface on the same knots | proved | `Spec.OffsetOf.unique`, `C108_point`, `C108_points`, `determines_of_full_spans`, `determines_of_step`, `C108_approx`, `C108_exact`, `C108_plane`, `C108_witness` | Polynomial surfaces: for rational ones offset_approx does not compile. Clamped knots whose multiplicities are at most the degree plus one, degrees up to 24. The dense solver is only assumed to solve regular systems; that evenly spaced samples make the system regular is proved. Where the normal vanishes the program divides by zero (C108_point). |
| C109 | Tangents from three points are those of the parabola through them, and the interpolation with computed derivatives reproduces what it can | partial | `C109_tangents`, `C109_line`, `C109_ends`, `C109_few`, `C109_directions`, `C109_direction_parabola`, `C109_directions_exist`, `C109_hermite`, `C109_computed`, `C109_reproduces`, `C109_not_reproduces`, `C109_degree_refused`, `C109_degree`, `C109_mode`, `C109_constrain`, `C109_witness`, `C109_direction_witness` | Increasing parameters, degrees up to 24; the sparse solver is only assumed to solve regular systems. What is missing is false of the code: the vectors of the two ends are not the derivatives of the parabolas (C109_ends: for points of a line the first is right only when the first step is 1, the last only when the last step is 1/2); the last direction is not a unit vector, and the directions are those of the parabolas only for equal steps (C109_direction_witness); the interpolation with computed derivatives of points of a line stops at both ends (C109_not_reproduces). |
| C110 | The centre of the rolling ball is on the normals of both curves, at the same distance of both | partial | `C110_ball`, `C110_tangent`, `C110_answers`, `C110_parallel_witness`, `C110_no_ball_witness` | NLopt is only assumed to stay between the bounds and not to be worse than its start; exact arithmetic. What is missing is false of the code: curves taken for parallel get the middle of two points, which need not be on the normals (C110_parallel_witness); when no ball exists a centre is returned and nothing tells it (C110_no_ball_witness); a parameter that is not one of the second curve is refused. |
| C111 | Derivatives along the lines of a surface, tangent and normal lines of a curve | proved | `C111_derivatives`, `C111_lists`, `C111_line_u`, `C111_line_v`, `C111_tangent_line`, `C111_normal_line`, `C111_two_normals` | Exact arithmetic. The direction of the normal of space is stated as the code has it, away from the centre of curvature; that of the plane is on the left (C111_two_normals). |
| C112 | The crossings of a lattice of curves are parameters of points that coincide, and the lines of a surface carry its parameters | partial | `C112_intersections_partial`, `C112_gap_accepted`, `C112_check`, `C112_project`, `C112_iso_lines_partial`, `C112_iso_lines_shifted` | NLopt is only assumed to stay between the bounds and not to be worse than its start; exact arithmetic. What is missing is false of the code: the tolerance is compared with the square of the distance, so curves up to the root of the tolerance apart are accepted (C112_gap_accepted); the lines taken from a surface start at the parameter 0 whatever the first parameter asked for, so they are shifted, or cannot be evaluated, when it is not 0 (C112_iso_lines_shifted). |
| C113 | The points of a text file are the numbers of its lines, in order | partial | `C113_split_partial`, `C113_white_vanishes`, `C113_read_partial`, `C113_refused`, `C113_one_column` | stod is a parameter and the file is the list of its lines. What is missing is false of the code: a line without the separator has no word, so points of dimension 1 written one on each line are refused (C113_one_column); white space other than the separator is removed instead of separating, so that two numbers with a tabulation between them are read as one number (C113_white_vanishes). |
| C114 | The poles of several columns computed together are those of each column | proved | `C114_columns`, `C114_interpolates`, `C114_cut`, `C114_short` | The sparse solver of Eigen is a parameter, assumed to solve the system it is given when the band is refused; exact arithmetic. |
| C115 | The least-squares loft on a spine passes through its sections when their feet interlace the uniform knots, and is the best fit otherwise | proved | `C115_sections`, `C115_few_sections`, `C115_least_squares`, `C115_undetermined`, `C115_target_poles`, `C115_too_few`, `C115_domain_witness`, `C115_clustered_witness` | The minimisation that finds the feet of the sections on the spine is a parameter, as is the dense solver, which is only assumed to solve regular systems; feet that go from one end to the other in one direction, over more than the tolerance. Degrees 1 to 12 along the sections, up to 24 across; distinct knots farther apart than the knot tolerance. Poles are in homogeneous coordinates for rational sections: C83_loft_rational says what this gives for their points. |
| C116 | The triangulation by trial of all triangles makes Delaunay triangles that do not cross, and all of them when no four vertices are cocircular | proved | `C116_faces`, `C116_complete`, `C116_witness` | Coordinates in an ordered field, so that orient_2d and in_circle are exact; half-edges of trials that are left out stay in the store, where no face refers to them. Crossing is what seg_seg_strict_intersection tells, in which short or nearly parallel sides never cross. |
| C117 | The banded matrix of a grid has all the products of basis functions, and the full system and the two systems in one variable have the same poles | proved | `C117_matrix`, `C117_recursive`, `C117_least_squares`, `C117_separates` | Degrees 1 to 12 (the size of the buffers on the stack; degree 0 is not covered by C117_recursive); the matrix has the size that the grid and the knots ask for. The factorizations of Eigen are parameters, assumed to solve regular systems or to return the solution of the normal equations when the rows determine the unknowns. Coordinates in an ordered field. |
| C118 | The points and cells made for display are those of the mesh | partial | `C118_faces`, `C118_vector`, `C118_loop`, `C118_unset`, `C118_open`, `C118_witness` | Proved for the faces, and for half-edges that close. Not true of half-edges that do not close: when the first one has nothing before it the last identifier is not stored, and when the half-edge before it ends elsewhere the polyline does not contain the start of the first half-edge. The normals and the kinds of the cells of VTK are not modelled. |
| C119 | The curves and surfaces exported to IGES are those of the program | partial | `C119_curve`, `C119_rational`, `C119_plane`, `C119_surface`, `C119_revolution`, `C119_origin`, `C119_witness` | Proved for the curves and surfaces of the space and for the axis and profile of surfaces of revolution. Not true of plane curves, whose array is too short for an entity 126, and of surfaces of revolution whose axis does not pass through the origin, which are exported right but evaluated wrong. libIGES is not in the sources: it is assumed to read three coordinates for each pole, and a weight when the curve is rational, as the entities of IGES have; the rational poles are given multiplied by their weights, and whether the library expects that is not checked. The approximation of other profiles, labels, flags and the file are not modelled. |
| C120 | Adding a dimension keeps the curve or surface and puts it at the value | partial | `C120_curve`, `C120_surface`, `C120_rational`, `C120_rational_default`, `C120_rational_surface`, `C120_witness` | Proved for curves and surfaces without weights, with all their derivatives. Not true of rational ones, for which the value takes the place of the weight: proved what the result is, and when it is the one expected. The result is always made from the whole curve, with the bounds of the knots. |
| C121 | The faces next to a face are those that share an edge with it | proved | `C121_faces`, `C121_symmetric`, `C121_common`, `C121_turn`, `C121_turn_none`, `C121_witness` | Proved on any valid mesh of triangles. |
| C122 | The deprecated unification of curves keeps the curves and ends with a common knot vector | partial | `C122_same`, `C122_unify`, `C122_degrees`, `C122_bounds_lost`, `C122_unified`, `C122_witness` | Proved for curves that are not trimmed, with different knots further apart than the tolerance. Not true of trimmed curves: the bounds of all curves but the first are ignored. |
| C123 | Lofts of curves of any kind pass through the conversions of their sections | partial | `C123_convert`, `C123_loft_params`, `C123_loft`, `C123_bounds_lost`, `C123_bounds_witness` | Proved when the conversions of the sections are clamped, not trimmed, of degree at most 12 and with different knots further apart than the tolerance. Not true of the code for a section that is trimmed, which is lofted whole. A section that is not a BSCurve, a rational one included, is met at its ends only; the lines of the surface are its approximation (C106). |
| C124 | Curves described in a document by what they interpolate pass through it | partial | `C124_cn_params`, `C124_cn_mode`, `C124_interp_params`, `C124_interp_given`, `C124_interp_mode`, `C124_given_refused`, `C124_refused`, `C124_mode_refused`, `C124_params_ignored`, `C124_specified_empty`, `C124_short_row`, `C124_witness` | Proved for documents with the members of the format, increasing parameters and degrees up to 24. Not true of the code for parameters without the mode SPECIFIED, which are ignored, for that mode with no parameters, which is taken for that of the chords, and for a second row shorter than the first, which is read outside its bounds. |
| C125 | The greatest and the least coordinate of a curve | partial | `C125_max_abs`, `C125_max`, `C125_max_negative`, `C125_min_abs`, `C125_min`, `C125_min_crossing`, `C125_refused`, `C125_solve`, `C125_witness` | The iterations of Newton and the search of Brent, of Boost, are only assumed to find a root or a least value when there is one. Proved when no coordinate is negative. Not true of the code otherwise: the searches are those of the greatest and of the least absolute value, so that the greatest coordinate of a curve without positive ones is its least one, and the least one of a curve that crosses zero is zero; and the value returned is the inverse of the square, or the square, of the coordinate. |
| C126 | The perimeter and the incentre of a triangle | proved | `C126_perimeter`, `C126_incenter`, `C126_unique`, `C126_point`, `C126_witness` | The square root is any function that returns a root that is not negative of the numbers that have one; the arithmetic is exact. Three equal points have no incentre: the quotient is 0/0. |
| C127 | Circulation around a face and reversal of a boundary | partial | `C127_circulation`, `C127_begin_equals_end`, `C127_empty_face`, `C127_open_face`, `C127_open_edges`, `C127_triangle_vertices`, `C127_reverse`, `C127_reverse_twice`, `C127_witness` | Proved for faces whose half-edges are closed, and for closed boundaries. Not true of the code otherwise: the iterators of the start and of the end are both equal and different, and the loop over a face without half-edge, or whose half-edges are not closed, does not end. The vertices returned for a triangle turn the other way than its half-edges. |
| C128 | The offset of a space curve in a direction | partial | `C128_point`, `C128_along`, `C128_straight`, `C128_constant`, `C128_order`, `C128_witness` | The points are proved to be the offset ones where the curve is not along the direction. The derivatives are not those of the offset curve: for a constant offset they are those of the curve itself, or 0/0 where it is straight. |
| C129 | Angles of vectors and length of a polyline | proved | `C129_plane`, `C129_space`, `C129_zero`, `C129_length`, `C129_degrees`, `C129_witness` | Over the real numbers, with the argument of complex numbers for std::atan2; the sign of zero is not modelled. A list without point is read past its end. |
| C130 | Blend functions of one order | proved | `C130_blend`, `C130_reproduces`, `C130_unity`, `C130_few` | For strictly increasing parameters and a sparse solver that solves regular systems. Nothing is claimed for one parameter without slope control. |
| C131 | Surfaces on lists of parameters | partial | `C131_lists`, `C131_short`, `C131_surface`, `C131_pairs`, `C131_thrown`, `C131_witness` | The property is false of a shorter second list: the assert on the sizes is compiled out of a release build and the list is read past its end; a longer one is not refused either. Otherwise proved, for the results, their order and the exceptions, under any schedule of the parallel algorithm. |
| C132 | Insertion into one curve of the knots of another one | partial | `C132_unify`, `C132_more_witness`, `C132_self_witness` | The property is false: a knot inside the interval with the same multiplicity, below the degree, in both curves is inserted zero times, which changes the curve, so that a curve is changed by its own knots; a knot with a greater multiplicity in the first curve is inserted up to the degree, because the difference of the multiplicities wraps. Proved otherwise: the curve and its derivatives are unchanged and the multiplicity of every knot is given. The function is deprecated and nothing in the repository calls it. |
| C133 | Deviation of a triangle from a surface | partial | `C133_deviation`, `C133_exchanged`, `C133_aligned`, `C133_plane` | The property is false of triangles given the other way round: on a plane the deviation is 0 for one order of the points and 2, the greatest possible, for the other one; for aligned points it is 0/0. Proved what is measured: the distance of the unit normals, its bounds, its relation to the cosine of their angle, when it is 0 and 2. The surface is any function that gives points and derivatives. Nothing in the repository calls the function. |
| C134 | Orientation of a face and crossing of a horizontal half-line | partial | `C134_face`, `C134_start`, `C134_few`, `C134_half_line`, `C134_witness` | The property is false as documented: is_ccw returns the number 1 or 0 of a boolean, so that it is never negative, and it is 1 for aligned points. Proved what it returns: 1 exactly when the first three vertices turn counter-clockwise or are aligned. The assert on the number of vertices is compiled out of a release build: a face of one or two vertices is read past its end and the further vertices of a larger one are ignored. The crossing of a horizontal half-line is proved, in exact arithmetic. |

## Index of the model

Every definition of `lean/Verif/Model` and the code it transcribes (from the comments of the definitions, where the simplifications are stated).

* `AbsCurv.lean`: `lengthD` (gbs/bscanalysis.h:87-113); `intervalLengths` (gbs/bscanalysis.h:146-152); `runningSums` (gbs/bscanalysis.h:154-159); `InterpArgs.interpolate` (gbs/bscinterp.h:638-653); `absCurv` (gbs/bscanalysis.h:139-163); `needsPoint` (gbs/bscanalysis.h:199-200); `adaptivePass` (gbs/bscanalysis.h:188-208); `adaptiveTable` (gbs/bscanalysis.h:179-225); `absCurvAdaptive` (gbs/bscanalysis.h:240-245); `curveLengthFunction` (gbs/bscanalysis.h:281-286); `uniformParams` (gbs/bscanalysis.h:338-366); `discretizeUniform` (gbs/bscanalysis.h:527-530).

* `AddDimension.lean`: `addDimension` (gbs/transformpoints.h:17-24); `Curve.addDimension` (gbs/bsctools.h:746-761); `Surface.addDimension` (gbs/bsstools.h:93-108).

* `Angles.lean`: `angleS` (gbs/vecop.ixx:185-190); `angleP` (gbs/vecop.ixx:192-197); `distV` (gbs/vecop.ixx:199-210); `polyLength` (gbs/vecop.ixx:212-221); `radians` (gbs/math.ixx:35-39); `degrees` (gbs/math.ixx:41-45).

* `Approx.lean`: `fillBasisBand` (gbs/knotsfunctions.ixx:925-944); `buildPolesMatrix` (gbs/knotsfunctions.ixx:946-955); `solveApproxBanded` (gbs/bscapprox.h:22-36); `checkApproxSizes` (gbs/bscapprox.h:46-60); `defaultNPoles` (gbs/bscapprox.h:65); `approxBoundFixed` (gbs/bscapprox.h:78-120); `approxKnots` (gbs/bscapprox.h:133-158); `approxUniform` (gbs/bscapprox.h:171-188); `refineScan` (gbs/bscapprox.h:207-240); `refineTurn` (gbs/bscapprox.h:204-265); `refineApprox` (gbs/bscapprox.h:190-268); `approxRefined` (gbs/bscapprox.h:269-275).

* `BaseDelaunay.lean`: `getFaceVertices` (inc/topology/halfEdgeMeshGetters.h:117-132); `edgeCrosses` (inc/topology/halfEdgeMeshGeomTests.h:226-240); `areFacesEdgesIntersect` (inc/topology/halfEdgeMeshGeomTests.h:220-243); `clashes` (inc/topology/tessellations.h:711-731); `tryTriangle` (inc/topology/tessellations.h:687-739); `baseDelaunay` (inc/topology/tessellations.h:671-745).

* `Basic.lean`: `Err` (gbs/exceptions.h).

* `Basis.lean`: `findSpanLoop` (gbs/basisfunctions.ixx:296-306); `findSpan` (gbs/basisfunctions.ixx:274-307); `findSpanRange` (gbs/basisfunctions.ixx:309-318); `stackMaxDegree` (gbs/gbsconstants.h); `basisFunction` (gbs/basisfunctions.ixx:41-71); `basisFunctionD` (gbs/basisfunctions.ixx:86-114); `bfInner` (gbs/basisfunctions.ixx:158-163); `bfOuter` (gbs/basisfunctions.ixx:153-165); `basisFuncs` (gbs/basisfunctions.ixx:147-166); `nduInner` (gbs/basisfunctions.ixx:194-200); `nduOuter` (gbs/basisfunctions.ixx:189-202); `dersInner` (gbs/basisfunctions.ixx:226-230); `dersFirst` (gbs/basisfunctions.ixx:219-223); `dersLast` (gbs/basisfunctions.ixx:231-235); `dersKk` (gbs/basisfunctions.ixx:214-238); `dersR` (gbs/basisfunctions.ixx:210-239); `dersScaleRow` (gbs/basisfunctions.ixx:247-248); `dersScale` (gbs/basisfunctions.ixx:245-250); `dersBasisFuns` (gbs/basisfunctions.ixx:177-251); `basisDers` (gbs/basisfunctions.ixx:260-272).

* `Batch.lean`: `batchRhs` (gbs/bscinterp.h:431-436); `buildPolesBatch` (gbs/bscinterp.h:411-447).

* `BoyerWatson.lean`: `triCoords` (inc/topology/tessellations.h:69-74, inc/topology/halfEdgeMeshGeomTests.h:22-27); `inCircleFace` (inc/topology/halfEdgeMeshGeomTests.h:15-31); `locate` (inc/topology/tessellations.h:134-167); `growCavity` (inc/topology/tessellations.h:182-201); `isStarLoop` (inc/topology/tessellations.h:86-100); `fillCavity` (inc/topology/tessellations.h:217-247); `boyerWatson` (inc/topology/tessellations.h:126-248); `getEncompassingMesh` (inc/topology/halfEdgeMeshGetters.h:625-650); `delaunay2D` (inc/topology/tessellations.h:259-277).

* `Circulation.lean`: `FaceIter` (inc/topology/halfEdgeMeshData.h:280-343); `make` (inc/topology/halfEdgeMeshData.h:297-298); `inc` (inc/topology/halfEdgeMeshData.h:307-318); `eq` (inc/topology/halfEdgeMeshData.h:328-331); `ne` (inc/topology/halfEdgeMeshData.h:334-337); `forFace` (inc/topology/halfEdgeMeshData.h:353-370); `triangleVertices` (inc/topology/halfEdgeMeshGetters.h:156-165); `reverseBoundary` (inc/topology/halfEdgeMeshEditors.h:516-531).

* `Connect.lean`: `interpolateChord` (gbs/bscinterp.h:586-594); `c2Connect` (gbs/bsctools.h:468-481); `c2ConnectScaled` (gbs/bsctools.h:505-519); `c3Connect` (gbs/bsctools.h:659-672); `cnConstraints` (gbs/bsctools.h:495-499); `cnConnect` (gbs/bsctools.h:483-502); `midConstraints` (gbs/bsctools.h:557-563); `c2Ellipse` (gbs/bsctools.h:522-577); `c2ConnectE` (gbs/bsctools.h:588-603); `c2ConnectAt` (gbs/bsctools.h:605-624); `throughKnots` (gbs/bsctools.h:653); `c2ConnectThrough` (gbs/bsctools.h:626-657); `c3ConnectE` (gbs/bsctools.h:684-730).

* `Constrained.lean`: `delaunay2DConstrained` (inc/topology/tessellations.h:331-440).

* `Coordinate.lean`: `solveCoordinate` (gbs/extrema.h:297-318); `invSquare` (gbs/extrema.h:356-359); `maxCoordinate` (gbs/extrema.h:346-363); `squareCoord` (gbs/extrema.h:376-379); `minCoordinate` (gbs/extrema.h:365-383).

* `Curve.lean`: `evalValue` (gbs/basisfunctions.ixx:350-392); `evalDersOrder` (gbs/basisfunctions.ixx:420-426); `evalDers` (gbs/basisfunctions.ixx:404-440); `evalDeBoorCox` (gbs/basisfunctions.ixx:740-767); `evalPar` (gbs/basisfunctions.ixx:669-712); `Curve` (gbs/bscurve.h:253-258); `Curve.value` (gbs/bscurve.h:590-597); `Curve.derivatives` (gbs/bscurve.h:599-606); `unflatLoop` (gbs/knotsfunctions.ixx:116-128); `unflatKnots` (gbs/knotsfunctions.ixx:106-129); `flatKnots` (gbs/knotsfunctions.ixx:215-237); `checkCurve` (gbs/bscurve.h:200-233); `Curve.mk?` (gbs/bscurve.h:307-315); `Curve.mkMult?` (gbs/bscurve.h:270-279).

* `CurveApprox.lean`: `approxMaxSamplePoints` (gbs/gbsconstants.h:117); `approxMaxIter` (gbs/gbsconstants.h:109); `sampleByDeviation` (gbs/bscapprox.h:330-338, gbs/bscanalysis.h:542-547); `refineFromPoints` (gbs/bscapprox.h:342-348); `approxPoints` (gbs/bscapprox.h:288-293, gbs/gbsconstants.h:105-107); `approxPointsPoles` (gbs/bscapprox.h:307-312); `approxCurve` (gbs/bscapprox.h:362-367); `approxCurvePoles` (gbs/bscapprox.h:380-390); `approxCurveKnots` (gbs/bscapprox.h:407-414); `approxCurveTol` (gbs/bscapprox.h:427-432); `approxCurveTolPoles` (gbs/bscapprox.h:445-450); `approxCurveBetween` (gbs/bscapprox.h:465-472); `approxCurveMapped` (gbs/bscapprox.h:474-493); `approxCurveUniform` (gbs/bscapprox.h:504-512, gbs/bscanalysis.h:379-383); `toBsCurve` (gbs/bsctools.h:55-67).

* `Degree.lean`: `factI` (gbs/math.ixx:47-58); `binomialI` (gbs/math.ixx:60-71); `bezierPole` (gbs/knotsfunctions.ixx:815-819); `increaseBezier` (gbs/knotsfunctions.ixx:806-822); `remCompute` (gbs/knotsfunctions.ixx:493-503); `remCommit` (gbs/knotsfunctions.ixx:506-512); `remPass` (gbs/knotsfunctions.ixx:486-503); `remFinish` (gbs/knotsfunctions.ixx:522-537); `removeKnot` (gbs/knotsfunctions.ixx:456-539); `remTolLoop` (gbs/knotsfunctions.ixx:607-662); `removeKnotTol` (gbs/knotsfunctions.ixx:553-681); `Curve.removeKnot` (gbs/bscurve.h:421-424); `rem1Loop` (gbs/knotsfunctions.ixx:722-733); `removeKnot1` (gbs/knotsfunctions.ixx:693-777); `bezierLoop` (gbs/knotsfunctions.ixx:853-872); `bezierInsert` (gbs/knotsfunctions.ixx:837-844); `bezierSegments` (gbs/knotsfunctions.ixx:832-876); `elevateSegs` (gbs/knotsfunctions.ixx:964-975); `joinSegs` (gbs/knotsfunctions.ixx:981-990); `increaseDegree` (gbs/knotsfunctions.ixx:955-1000); `Curve.increaseDegree` (gbs/bscurve.h:576-580).

* `Discretize.lean`: `devGt` (gbs/bscanalysis.h:406-408); `refineParams` (gbs/bscanalysis.h:395-415); `refineIso` (gbs/bssanalysis.h:44-58); `refineAll` (gbs/bscanalysis.h:463-471, gbs/bssanalysis.h:85-93); `startParams` (gbs/bscanalysis.h:434-436, gbs/bssanalysis.h:78-80); `deviationParams` (gbs/bscanalysis.h:430-474); `deviationIsoParams` (gbs/bssanalysis.h:74-95); `discretizeWithParams` (gbs/bscanalysis.h:561-568, gbs/bscanalysis.h:504-516); `discretizeGrid` (gbs/bssanalysis.h:7-30).

* `EdgeRecovery.lean`: `faceEdgeFrom` (inc/topology/halfEdgeMeshGetters.h:24-31); `getFaceEdge` (inc/topology/halfEdgeMeshGetters.h:20-33); `fanFirst` (inc/topology/halfEdgeMeshGetters.h:335-347); `getFacesAttachedToVertex` (inc/topology/halfEdgeMeshGetters.h:326-360); `findIn` (inc/topology/halfEdgeMeshGetters.h:383-389); `findHalfEdge` (inc/topology/halfEdgeMeshGetters.h:374-391); `crossEdge` (inc/topology/edgeRecovery.h:60-71); `crossFace` (inc/topology/edgeRecovery.h:57-74); `walkCross` (inc/topology/edgeRecovery.h:82-110); `recoverPass` (inc/topology/edgeRecovery.h:126-175); `recoverPasses` (inc/topology/edgeRecovery.h:123-178); `recoverEdge` (inc/topology/edgeRecovery.h:32-183).

* `Extend.lean`: `extConstraints` (gbs/bsctools.h:783-795); `extentionWith` (gbs/bsctools.h:776-797); `Curve.extentionTo` (gbs/bsctools.h:776-797); `Curve.extentionToRat` (gbs/bsctools.h:776-797); `extParam` (gbs/bsctools.h:813-816); `Curve.extendedAtEnd` (gbs/bsctools.h:831-837, gbs/bsctools.h:810-818); `Curve.extendedToPoint` (gbs/bsctools.h:850-865); `Curve.extended` (gbs/bsctools.h:879-901).

* `ExtendSurf.lean`: `extMeanStep` (gbs/bsstools.h:138-145); `extRows` (gbs/bsstools.h:150-168); `Surface.extentionToCurve` (gbs/bsstools.h:117-171); `Surface.extendedToCurve` (gbs/bsstools.h:293-298); `Surface.lengthCurve` (gbs/bsstools.h:303-321); `Surface.extention` (gbs/bsstools.h:300-323); `Surface.extended` (gbs/bsstools.h:325-330); `SurfaceBound` (gbs/bsstools.h:332); `Surface.extentionAt` (gbs/bsstools.h:334-366); `Surface.extendedAt` (gbs/bsstools.h:367-407).

* `Extrema.lean`: `solveD` (gbs/solvers.h:66-100); `curvePointF` (gbs/extrema.h:34-38); `curvePointG` (gbs/extrema.h:40-45); `extremaCurvePointFrom` (gbs/extrema.h:31-58); `extremaCurvePoint` (gbs/extrema.h:69-78); `surfPointF` (gbs/extrema.h:95-98); `surfPointG` (gbs/extrema.h:100-107); `extremaSurfPntFrom` (gbs/extrema.h:92-120); `extremaSurfPnt` (gbs/extrema.h:135-146); `curveCurveF` (gbs/extrema.h:151-154); `curveCurveG` (gbs/extrema.h:156-162); `extremaCurveCurveFrom` (gbs/extrema.h:149-176); `bestPair` (gbs/extrema.h:187-195); `extremaCurveCurve` (gbs/extrema.h:179-199); `extremaLines` (gbs/extrema.h:209-219); `surfCurveF` (gbs/extrema.h:254-257); `surfCurveG` (gbs/extrema.h:259-266); `extremaSurfCurveFrom` (gbs/extrema.h:251-280); `extremaSurfCurve` (gbs/extrema.h:283-293); `maxCoordObjective` (gbs/extrema.h:356-359); `minCoordObjective` (gbs/extrema.h:376-379); `devLoop` (gbs/bscanalysis.h:44-55); `devFromPoints` (gbs/bscanalysis.h:39-58); `curvatureF` (gbs/bscanalysis.h:693-696); `curvatureG` (gbs/bscanalysis.h:697-702); `maxCurvaturePos` (gbs/bscanalysis.h:691-718).

* `FaceCcw.lean`: `Mesh.isCcw` (inc/topology/halfEdgeMeshGeomTests.h:54-65, inc/topology/baseGeom.h:49); `segHStrict` (inc/topology/baseIntersection.h:278-287).

* `FillPoles.lean`: `supportBand` (gbs/bssinterp.h:76-82); `fillBlock` (gbs/bssinterp.h:90-101); `fillPolesMatrix` (gbs/bssinterp.h:50-103); `buildPolesWith` (gbs/bssinterp.h:105-128).

* `Frenet.lean`: `ASurface.derivatives` (gbs/bssurf.h:245-250); `ASurface.dDmu` (gbs/bssurf.h:257-261); `ASurface.dDmv` (gbs/bssurf.h:268-272); `ASurface.dDmu2` (gbs/bssurf.h:279-288); `ASurface.dDmv2` (gbs/bssurf.h:294-303); `ASurface.dDmus` (gbs/bssurf.h:313-323); `ASurface.dDmvs` (gbs/bssurf.h:333-343); `ASurface.dDmu2s` (gbs/bssurf.h:353-363); `ASurface.dDmv2s` (gbs/bssurf.h:373-383); `tangentialDirection` (gbs/bscanalysis.h:579-583); `tangentialLine` (gbs/bscanalysis.h:594-597); `normalDirection3` (gbs/bscanalysis.h:624-631); `normalLine3` (gbs/bscanalysis.h:641-645).

* `FromText.lean`: `splitLoop` (gbs-io/fromtext.h:15-23); `splitLine` (gbs-io/fromtext.h:9-45); `readNum` (gbs-io/fromtext.h:72-93); `readLine` (gbs-io/fromtext.h:64-95); `readPoints` (gbs-io/fromtext.h:50-97); `curveFromText` (gbs-io/fromtext.h:47-100).

* `Geom2.lean`: `orient2d` (inc/topology/baseGeom.h:9-33, inc/topology/robustPredicates.h, Verif/Model/Predicates.lean); `areCcw` (inc/topology/baseGeom.h:43-50); `triArea` (inc/topology/baseGeom.h:77-86); `coordsMinMax` (inc/topology/baseGeom.h:88-104); `circleCenter` (inc/topology/baseGeom.h:120-139); `computeUV` (inc/topology/baseGeom.h:233-267); `sphereCenter` (inc/topology/baseGeom.h:157-180); `triSign` (inc/topology/baseIntersection.h:29-31); `inTriangle` (inc/topology/baseIntersection.h:21-44); `triBary` (inc/topology/baseIntersection.h:55-84); `inTriangleBary` (inc/topology/baseIntersection.h:94-110); `inCircle` (inc/topology/baseIntersection.h:125-166); `segSegStrict` (inc/topology/baseIntersection.h:178-206); `onSegment` (inc/topology/baseIntersection.h:208-237); `segDStrict` (inc/topology/baseIntersection.h:239-277); `rayCrosses` (inc/topology/halfEdgeMeshGeomTests.h:101-112); `isInside` (inc/topology/halfEdgeMeshGeomTests.h:77-116); `edgesCcw` (inc/topology/halfEdgeMeshGeomTests.h:176-214).

* `Gordon.lean`: `maxDegree` (gbs/bssbuild.h:87-99); `touchParam` (gbs/bssbuild.h:489-495); `touchParams` (gbs/bssbuild.h:483-505); `networkPoints` (gbs/bssbuild.h:535-554); `buildIntersections` (gbs/bssbuild.h:525-557); `Surface.raiseDegreeV` (gbs/bssbuild.h:577-580); `gordonSum` (gbs/bssbuild.h:608-641); `gordon` (gbs/bssbuild.h:562-642).

* `HalfEdge.lean`: `HEdge` (inc/topology/halfEdgeMeshData.h:50-62); `newEdge` (inc/topology/halfEdgeMeshData.h:73-87); `newVertex` (inc/topology/halfEdgeMeshData.h:96-100); `newEdgeAt` (inc/topology/halfEdgeMeshData.h:110-115); `makeLoop` (inc/topology/halfEdgeMeshData.h:208-223); `makeFace` (inc/topology/halfEdgeMeshData.h:239-253); `faceEdgesFrom` (inc/topology/halfEdgeMeshGetters.h:82-91); `getFaceEdges` (inc/topology/halfEdgeMeshGetters.h:76-93); `getTriangleEdges` (inc/topology/halfEdgeMeshGetters.h:43-52); `getCommonEdge` (inc/topology/halfEdgeMeshGetters.h:246-256); `associate` (inc/topology/halfEdgeMeshEditors.h:105-110); `repair` (inc/topology/halfEdgeMeshEditors.h:150-151); `flip` (inc/topology/halfEdgeMeshEditors.h:123-158); `linkEdges` (inc/topology/halfEdgeMeshEditors.h:192-199); `chainEdges` (inc/topology/halfEdgeMeshEditors.h:209-220); `makeOpposite` (inc/topology/halfEdgeMeshEditors.h:172-179); `addFace` (inc/topology/halfEdgeMeshEditors.h:48-64); `addFaceEdge` (inc/topology/halfEdgeMeshEditors.h:78-93); `fanLoop` (inc/topology/halfEdgeMeshEditors.h:264-280); `addVertex` (inc/topology/halfEdgeMeshEditors.h:235-285); `addVertexFace` (inc/topology/halfEdgeMeshEditors.h:299-303); `repairVertexEdges` (inc/topology/halfEdgeMeshEditors.h:324-337); `takeChain` (inc/topology/halfEdgeMeshEditors.h:397-410); `takeClosedLoops` (inc/topology/halfEdgeMeshEditors.h:380-416); `onBoundaryOf` (inc/topology/halfEdgeMeshGetters.h:472-477); `getFacesBoundary` (inc/topology/halfEdgeMeshGetters.h:461-485); `getOrientedFacesBoundaries` (inc/topology/halfEdgeMeshGetters.h:495-500); `removeFaces` (inc/topology/halfEdgeMeshEditors.h:339-370); `isBoundaryFrom` (inc/topology/halfEdgeMeshGeomTests.h:273-280); `isBoundary` (inc/topology/halfEdgeMeshGeomTests.h:268-283); `splitFace` (inc/topology/halfEdgeMeshEditors.h:561-576); `splitOpp` (inc/topology/halfEdgeMeshEditors.h:580-598); `splitHalfEdge` (inc/topology/halfEdgeMeshEditors.h:546-603).

* `Iges.lean`: `igesCurve` (gbs-io/iges.h:10-25); `igesCurveRat` (gbs-io/iges.h:10-25); `igesSurface` (gbs-io/iges.h:27-45); `igesRevolution` (gbs-io/iges.h:47-107, gbs/surfaceofrevolution.h:28-40).

* `Incenter.lean`: `perimeter` (inc/topology/baseGeom.h:179-185); `incenter` (inc/topology/baseGeom.h:187-198).

* `Interp.lean`: `bandIdx` (gbs/bscinterp.h:186-187); `facRow` (gbs/bscinterp.h:256-265); `facStep` (gbs/bscinterp.h:250-266); `factorize` (gbs/bscinterp.h:247-268); `bandForward` (gbs/bscinterp.h:318-325); `bandBackward` (gbs/bscinterp.h:326-333); `bandSolve` (gbs/bscinterp.h:316-334); `basisBandExtent` (gbs/knotsfunctions.ixx:885-891); `bandPass1` (gbs/bscinterp.h:207-217); `bandPass2` (gbs/bscinterp.h:224-237); `assembleAndFactorize` (gbs/bscinterp.h:195-240); `assembleSparse` (gbs/bscinterp.h:133-167); `interpRhs` (gbs/bscinterp.h:384-389); `buildPoles` (gbs/bscinterp.h:372-400); `interpolateNc` (gbs/bscinterp.h:534-552); `interpolateCn` (gbs/bscinterp.h:603-609); `Constr` (gbs/bscinterp.h:25-31); `constrPass1` (gbs/bscinterp.h:285-294); `constrPass2` (gbs/bscinterp.h:301-312); `assembleConstraints` (gbs/bscinterp.h:276-314); `fillBasisRow` (gbs/knotsfunctions.ixx:901-919); `fillMatrix` (gbs/bscinterp.h:491-494); `byUd` (gbs/bscinterp.h:466); `buildPolesConstr` (gbs/bscinterp.h:452-508); `interpolateBounds` (gbs/bscinterp.h:672-719).

* `Join.lean`: `Curve.copied` (gbs/bscurve.h:589); `Curve.toRational` (gbs/bscurve.h:637-638); `unifyTwo` (gbs/bsctools.h:274-291); `joinPoles` (gbs/bsctools.h:434-438); `joinPolesRat` (gbs/bsctools.h:426-431); `joinKnots` (gbs/bsctools.h:440-454); `joinCurves` (gbs/bsctools.h:406-457); `joinCurvesRat` (gbs/bsctools.h:406-457); `joinCurvesPR` (gbs/bsctools.h:406-457); `joinCurvesRP` (gbs/bsctools.h:406-457).

* `Json.lean`: `Json.getDouble` (gbs-io/fromjson.h:36-41); `Json.getSize` (gbs-io/fromjson.h:60-65); `Json.makeVec` (gbs-io/fromjson.h:76-97); `Json.makeArray` (gbs-io/fromjson.h:100-120); `Json.makePointVec` (gbs-io/fromjson.h:142-156); `Json.makeAx2` (gbs-io/fromjson.h:123-139); `Json.ofVec` (gbs-io/tojson.h:42-58); `Json.ofSizes` (gbs-io/tojson.h:42-58); `Json.ofPoints` (gbs-io/tojson.h:67-77); `Json.ofAx2` (gbs-io/tojson.h:80-90); `knotsAndMults` (gbs/knotsfunctions.ixx:163-169); `Json.ofBs` (gbs-io/tojson.h:113-133); `Json.ofRat` (gbs-io/tojson.h:136-159); `Json.ofFunction` (gbs-io/tojson.h:162-173); `Json.ofBsSurface` (gbs-io/tojson.h:336-363); `Json.ofRatSurface` (gbs-io/tojson.h:366-396); `JCurve.write` (gbs-io/tojson.h:276-300); `JCurves.write` (gbs-io/tojson.h:223-231); `JSurface.write` (gbs-io/tojson.h:399-411); `Json.toBs` (gbs-io/fromjson.h:403-409); `Json.toRat` (gbs-io/fromjson.h:412-419); `Json.makeSurface` (gbs-io/fromjson.h:436-468); `Json.makeCurve` (gbs-io/fromjson.h:399-433); `Json.makeSurface3` (gbs-io/fromjson.h:471-489); `Json.bscurveDirect` (gbs-io/fromjson.h:186-205); `Json.makeBscurve` (gbs-io/fromjson.h:302-334); `Json.makeBssurface` (gbs-io/fromjson.h:337-350).

* `JsonInterp.lean`: `enumMode` (gbs/knotsfunctions.ixx:295); `Json.constraintsVec` (gbs-io/fromjson.h:158-184); `Json.bscurveInterpCn` (gbs-io/fromjson.h:226-252); `Json.modeAndParams` (gbs-io/fromjson.h:257-269); `Json.readConstraints` (gbs-io/fromjson.h:270-281); `Json.bscurveInterp` (gbs-io/fromjson.h:254-300); `Json.readBscurve` (gbs-io/fromjson.h:316-329); `Json.readBscurveAt` (gbs-io/fromjson.h:380-393).

* `KnotInsertion.lean`: `insInner` (gbs/knotsfunctions.ixx:406-409); `insOuter` (gbs/knotsfunctions.ixx:401-413); `insertKnots` (gbs/knotsfunctions.ixx:366-423); `Curve.insertKnot` (gbs/bscurve.h:396-399).

* `Laplacian.lean`: `getNeighboringVertices` (inc/topology/halfEdgeMeshGetters.h:418-450); `sumCo` (inc/topology/halfEdgeMeshSmoothing.h:13-16); `laplacianSmoothing` (inc/topology/halfEdgeMeshSmoothing.h:7-19); `isLocallyDelaunay` (inc/topology/halfEdgeMeshGeomTests.h:128-152); `restoreDelaunay` (inc/topology/tessellations.h:559-565); `edgesMap` (inc/topology/halfEdgeMeshGetters.h:578-597); `smoothLoop` (inc/topology/tessellations.h:527-566); `meshRefine` (inc/topology/tessellations.h:509-569).

* `Lattice.lean`: `meetingOf` (gbs-mesh/tfi.h:742-746); `latticeIntersections` (gbs-mesh/tfi.h:729-764); `checkCurveLattice` (gbs-mesh/tfi.h:460-480); `projectPoints` (gbs-mesh/tfi.h:659-673); `isoSegment` (gbs-mesh/tfi.h:795-796); `isoLines` (gbs-mesh/tfi.h:792-803).

* `Loft.lean`: `loftCore` (gbs/loft/loftBase.h:25-45); `buildLoftSurfacePoles` (gbs/loft/loftBase.h:60-78); `loftFlat` (gbs/loft/loftBase.h:101-124); `loftParamRow` (gbs/loft/loftBase.h:193-202); `loftAveragedParams` (gbs/loft/loftBase.h:181-209); `loftAuto` (gbs/loft/loftBase.h:211-229); `clampSections` (gbs/loft/loftGeneric.h:32-34); `loftGenericFlat` (gbs/loft/loftGeneric.h:24-42); `loftGenericV` (gbs/loft/loftGeneric.h:84-103, gbs/loft/loftBase.h:151-160); `loftGenericAuto` (gbs/loft/loftGeneric.h:140-152).

* `LoftApprox.lean`: `spineStations` (gbs/bssbuild.h:340-353); `sectionGrid` (gbs/bssbuild.h:355-372); `loftApproxOn` (gbs/bssbuild.h:319-380); `loftApproxPoles` (gbs/bssbuild.h:392-407); `loftApprox` (gbs/bssbuild.h:420-440).

* `LoftCurves.lean`: `bsCurvesInfo` (gbs/bsctools.h:90-127); `convertSections` (gbs/loft/loftCurves.h:116-123); `loftCurves` (gbs/loft/loftCurves.h:113-125); `loftCurvesV` (gbs/loft/loftCurves.h:142-154).

* `MshEdge.lean`: `Curve.toFun` (gbs/bscurve.h:670-694); `MshEdge` (gbs-mesh/mshedge.h:8-14); `MshEdge.new` (gbs-mesh/mshedge.h:16-38, gbs/bscanalysis.h:140); `MshEdge.setN` (gbs-mesh/mshedge.h:40-44); `MshEdge.updateLaw` (gbs-mesh/mshedge.h:46-51); `MshEdge.updateLaw6` (gbs-mesh/mshedge.h:53-70); `MshEdge.computePnts` (gbs-mesh/mshedge.h:72-86).

* `Neighbours.lean`: `getCommonEdges` (inc/topology/halfEdgeMeshGetters.h:267-275); `getPreviousFace` (inc/topology/halfEdgeMeshGetters.h:285-296); `getNextFace` (inc/topology/halfEdgeMeshGetters.h:306-316); `getNeighboringFaces` (inc/topology/halfEdgeMeshGetters.h:401-416).

* `Offset.lean`: `offsetPoint` (gbs/offsets.h:26-35); `offsetPoints` (gbs/offsets.h:8-37); `offsetApprox` (gbs/offsets.h:39-63).

* `Parallel.lean`: `Batch.step` (gbs/execution.h:130-134); `Batch.init` (gbs/execution.h:122-129); `rethrowFirst` (gbs/execution.h:140-143); `buildBatch` (gbs/execution.h:117-144); `transformThreshold` (gbs/execution.h:70-75, gbs/bscurve.h:65-74).

* `Polydata.lean`: `add` (inc/topology/halfEdgeMeshGetters.h:535-539); `verticesMap` (inc/topology/halfEdgeMeshGetters.h:525-544); `verticesVector` (inc/topology/halfEdgeMeshGetters.h:554-568); `generatePoints` (inc/topology/halfEdgeMeshRender.h:33-58); `generateCells` (inc/topology/halfEdgeMeshRender.h:96-126); `polydata` (inc/topology/halfEdgeMeshRender.h:180-245); `polydataLoop` (inc/topology/halfEdgeMeshRender.h:254-297).

* `Quality.lean`: `triFaceArea` (inc/topology/halfEdgeMeshQuality.h:18-27); `sumArea` (inc/topology/halfEdgeMeshQuality.h:17-45); `reduceArea` (inc/topology/halfEdgeMeshQuality.h:54-83); `sideMid` (inc/topology/halfEdgeMeshGetters.h:653-658); `sideSq` (inc/topology/halfEdgeMeshGetters.h:669-674); `triangleCoords` (inc/topology/halfEdgeMeshGetters.h:213-222); `sideSag` (inc/topology/halfEdgeMeshQuality.h:236-254); `distanceMesh2` (inc/topology/halfEdgeMeshQuality.h:209-263); `deviationMesh` (inc/topology/halfEdgeMeshQuality.h:289-309); `surfTangent` (gbs/bssurf.h:231-234); `sideTurn` (inc/topology/halfEdgeMeshQuality.h:329-343); `deviationMesh2` (inc/topology/halfEdgeMeshQuality.h:312-352); `maxEdgeSizeSurface` (inc/topology/halfEdgeMeshQuality.h:354-380); `longestSide` (inc/topology/halfEdgeMeshQuality.h:431-440, inc/topology/halfEdgeMeshData.h:328-337); `edgeSplit` (inc/topology/halfEdgeMeshQuality.h:405-459); `triangleShape` (inc/topology/halfEdgeMeshQuality.h:461-504); `triangleShape2` (inc/topology/halfEdgeMeshQuality.h:506-538); `sideGap` (inc/topology/halfEdgeMeshQuality.h:613-626); `distanceMesh3` (inc/topology/halfEdgeMeshQuality.h:576-637).

* `Ranges.lean`: `makeRange` (gbs/math.ixx:73-97); `makeRange2` (gbs/math.ixx:99-119); `makeRange3` (gbs/math.ixx:121-145); `makeRangeInt` (gbs/math.ixx:159-177); `KnotsCalcMode` (gbs/knotsfunctions.ixx:295); `cumulate` (gbs/knotsfunctions.ixx:314-326); `adimension` (gbs/knotsfunctions.ixx:285-293); `curveParametrization` (gbs/knotsfunctions.ixx:306-341); `insertUniqueOrdered` (gbs/knotsfunctions.ixx:1078-1084); `insertOrdered` (gbs/knotsfunctions.ixx:1095-1099); `buildSimpleMultFlatKnots` (gbs/knotsfunctions.ixx:77-96); `averagedFlatKnots` (gbs/knotsfunctions.ixx:35-65); `buildMultFlatKnots` (gbs/knotsfunctions.ixx:260-268).

* `Rational.lean`: `factU` (gbs/math.ixx:47-58); `binomialU` (gbs/math.ixx:60-71); `weightProjection` (gbs/basisfunctions.ixx:874-888); `vdiv` (gbs/vecop.ixx:149-153); `evalRationalF` (gbs/basisfunctions.ixx:1087-1110); `evalRational` (gbs/basisfunctions.ixx:1087-1110); `rationalOrder` (gbs/basisfunctions.ixx:474-487); `evalRationalDers` (gbs/basisfunctions.ixx:459-488); `Curve.ratValue` (gbs/bscurve.h:638-645); `Curve.ratDerivatives` (gbs/bscurve.h:646-653); `addWeight` (gbs/basisfunctions.ixx:951-964); `mergeWeights` (gbs/basisfunctions.ixx:849-864); `separateWeights` (gbs/basisfunctions.ixx:922-941); `addUnitWeights` (gbs/basisfunctions.ixx:972-987); `addWeightsCoord` (gbs/basisfunctions.ixx:999-1020); `scalePoles` (gbs/basisfunctions.ixx:1030-1039); `scaleWeights` (gbs/basisfunctions.ixx:1041-1058); `scaledWeights` (gbs/basisfunctions.ixx:1068-1074); `polesProjected` (gbs/bscurve.h:609-617).

* `Reparam.lean`: `changeBoundsK` (gbs/knotsfunctions.ixx:784-793); `Curve.changeBounds` (gbs/bscurve.h:554-558); `Curve.reverse` (gbs/bscurve.h:509-520); `Curve.reversed` (gbs/bscurve.h:526-532, gbs/bscurve.h:584); `buildDerivate` (gbs/bscbuild.h:116-140); `buildIntegrate` (gbs/bscbuild.h:152-168).

* `RollingBall.lean`: `solveN` (gbs/solvers.h:22-54); `normalLine2` (gbs/bscanalysis.h:642-645, gbs/curveline.h:17-23); `lineAt` (gbs/curveline.h:27-33); `ballResidual` (gbs/bscanalysis.h:750-757); `rollingBall` (gbs/bscanalysis.h:725-779).

* `Shaping.lean`: `shapeSolve` (gbs/bscshaping.h:47-71, gbs/bssshaping.h:64-88); `shapeMatrix` (gbs/bscshaping.h:23-35); `moveDelta` (gbs/bscshaping.h:20-80); `Curve.movedDelta` (gbs/bscshaping.h:83-92); `Curve.spanRange` (gbs/bscshaping.h:94-110); `Curve.toDelta` (gbs/bscshaping.h:112-123); `fixRange` (gbs/bscshaping.h:140-144, gbs/bssshaping.h:180-186); `Curve.movedToConstraints` (gbs/bscshaping.h:134-147); `Curve.moveToConstraints` (gbs/bscshaping.h:149-153, gbs/bscurve.h:441-448); `Curve.movedToPoint` (gbs/bscshaping.h:185-205); `Curve.moveToPoint` (gbs/bscshaping.h:218-222); `surfShapeMatrix` (gbs/bssshaping.h:34-52); `surfMoveDelta` (gbs/bssshaping.h:25-102); `Surface.movedDelta` (gbs/bssshaping.h:104-119); `Surface.spanRange` (gbs/bssshaping.h:121-146); `Surface.toDelta` (gbs/bssshaping.h:148-161); `Surface.movedToConstraints` (gbs/bssshaping.h:172-191); `Surface.movedToPoint` (gbs/bssshaping.h:204-212); `Surface.moveToPoint` (gbs/bssshaping.h:214-224, gbs/bssurf.h:784-791).

* `Smoothing.lean`: `smoothNode` (gbs-mesh/smoothing.h:12-27); `smoothSweep` (gbs-mesh/smoothing.h:33-60); `smoothLoop` (gbs-mesh/smoothing.h:31-64); `smooth` (gbs-mesh/smoothing.h:5-66); `smoothPython` (python/gbsbindmesh.cpp:192-198).

* `Spine.lean`: `alignedPoles` (gbs/bssbuild.h:43-60); `alignedParams` (gbs/bssbuild.h:58); `tangentPole` (gbs/bssbuild.h:137-141); `tangentPoleRat` (gbs/bssbuild.h:130-136); `spineScale` (gbs/bssbuild.h:198-206); `spineTangents` (gbs/bssbuild.h:145-210); `hermiteColumns` (gbs/bssbuild.h:247-255); `spineLoft` (gbs/bssbuild.h:212-260).

* `SurfApprox.lean`: `checkApproxSizesSurf` (gbs/bssapprox.h:17-34); `approxGrid` (gbs/bssapprox.h:35-86); `approxSurfConstr` (gbs/bssapprox.h:88-157).

* `SurfInterp.lean`: `extractU` (gbs/bssinterp.h:22-32); `extractV` (gbs/bssinterp.h:34-48); `gridMatrix` (gbs/bssinterp.h:150-158); `tensorSolve` (gbs/bssinterp.h:160-179, gbs/bssapprox.h:76-82); `buildPolesGrid` (gbs/bssinterp.h:130-180); `avgParams` (gbs/bssinterp.h:193-211); `interpolateGrid` (gbs/bssinterp.h:182-230); `SConstr` (gbs/bssinterp.h:8-10); `surfConstrRow` (gbs/bssinterp.h:259-289); `surfConstrMatrix` (gbs/bssinterp.h:253-290); `buildPolesSurf` (gbs/bssinterp.h:246-306); `rangeMultFlatKnots` (gbs/knotsfunctions.ixx:269-278); `interpolateSurfConstr` (gbs/bssinterp.h:323-352).

* `SurfTools.lean`: `Surface.raiseDegreeU` (gbs/bsstools.h:182-183); `checkSameKnots` (gbs/bsstools.h:185-192); `joinRows` (gbs/bsstools.h:205-218); `joinSurfaces` (gbs/bsstools.h:174-240); `splitU` (gbs/bsstools.h:249-266); `splitV` (gbs/bsstools.h:274-291).

* `Surface.lean`: `surfSum` (gbs/basisfunctions.ixx:527-538); `surfSumRec` (gbs/basisfunctions.ixx:545-557); `evalSurf` (gbs/basisfunctions.ixx:784-838); `evalSurfDers` (gbs/basisfunctions.ixx:500-561); `ratSurfEntry` (gbs/basisfunctions.ixx:587-615); `evalRatSurfDers` (gbs/basisfunctions.ixx:576-634); `Surface` (gbs/bssurf.h:395-403); `checkCurveW` (gbs/bscurve.h:200-233); `Surface.mk?` (gbs/bssurf.h:414-440); `Surface.nU` (gbs/bssurf.h:751-754); `Surface.nV` (gbs/bssurf.h:761-764); `Surface.outside` (gbs/bssurf.h:818-821); `Surface.value` (gbs/bssurf.h:1053-1061); `Surface.derivatives` (gbs/bssurf.h:816-828); `Surface.ratDerivatives` (gbs/bssurf.h:816-828); `Surface.ratValue` (gbs/bssurf.h:1085-1103); `Surface.pole` (gbs/bssurf.h:672-701); `Surface.polesU` (gbs/bssurf.h:711-722); `Surface.polesV` (gbs/bssurf.h:733-744); `invertedUVPoles` (gbs/bssurf.h:26-39); `Surface.invertUV` (gbs/bssurf.h:909-915); `Surface.insertKnotU` (gbs/bssurf.h:596-617); `Surface.insertKnotV` (gbs/bssurf.h:630-653); `Surface.isoU` (gbs/bssurf.h:1012-1024); `Surface.isoV` (gbs/bssurf.h:1033-1045); `Surface.changeUBounds` (gbs/bssurf.h:838-843); `Surface.changeVBounds` (gbs/bssurf.h:851-856); `Surface.reverseU` (gbs/bssurf.h:922-938); `Surface.reverseV` (gbs/bssurf.h:944-949); `Surface.trimU` (gbs/bssurf.h:962-986); `Surface.trimV` (gbs/bssurf.h:997-1002); `transposePoles` (gbs/polestools.h:14-30); `transposeBlock` (gbs/polestools.h:41-54); `transposePolesBlocked` (gbs/polestools.h:63-78); `flattenPoles` (gbs/polestools.h:86-101).

* `SurfaceDegree.lean`: `Surface.increaseDegreeU` (gbs/bssurf.h:865-891); `Surface.increaseDegreeV` (gbs/bssurf.h:898-903).

* `SurfaceMesh.lean`: `meshSurfaceBoundary` (inc/topology/tessellations.h:39-64); `surfaceBase` (inc/topology/tessellations.h:589-608); `faceView` (inc/topology/halfEdgeMeshQuality.h); `surfaceMeshRefine` (inc/topology/tessellations.h:460-506); `maxEdgeSize` (inc/topology/halfEdgeMeshQuality.h:354-404); `surfaceMesh` (inc/topology/tessellations.h:625-630).

* `TakeFaces.lean`: `loopEdges` (inc/topology/halfEdgeMeshData.h:171-194); `centroidInside` (inc/topology/halfEdgeMeshGeomTests.h:252-266, inc/topology/halfEdgeMeshGetters.h:189-204); `eraseLinks` (inc/topology/halfEdgeMeshEditors.h:426-443); `takeWhere` (inc/topology/halfEdgeMeshEditors.h:459-474); `takeInternalFaces` (inc/topology/halfEdgeMeshEditors.h:485-510); `takeExternalFaces` (inc/topology/halfEdgeMeshEditors.h:452-476); `addInnerBound` (inc/topology/tessellations.h:640-649); `addOuterBound` (inc/topology/tessellations.h:660-669); `delaunay2DInner` (inc/topology/tessellations.h:286-294).

* `Tangents.lean`: `deltaList` (gbs/vecop.ixx:223-235); `quotList` (gbs/vecop.ixx:155-167); `besselWeights` (gbs/bscinterp.h:67-73); `blendInto` (gbs/vecop.ixx:304-333); `tangentEnds` (gbs/bscinterp.h:83-84); `threePointVec` (gbs/bscinterp.h:59-87); `adimList` (gbs/vecop.ixx:253-263); `threePointDir` (gbs/bscinterp.h:89-122); `computedConstraints` (gbs/bscinterp.h:556-580); `interpolateWith` (gbs/bscinterp.h:534-586); `getConstrain` (gbs/bscinterp.h:520-532); `interpolateMode` (gbs/bscinterp.h:588-596); `interpolateDegree` (gbs/bscinterp.h:607-624).

* `Tfi.lean`: `uniformDistrib` (gbs/bscanalysis.h:338-366); `segParams` (gbs-mesh/tfi.h:349-364); `setNodes` (gbs-mesh/tfi.h:365-382); `sameBounds` (gbs/curvescheck.h:37-49); `mshCurvesSet` (gbs-mesh/tfi.h:332-383); `mshCurvesSetL` (gbs-mesh/tfi.h:385-445); `crossings` (gbs-mesh/tfi.h:499-523); `crossingsL` (gbs-mesh/tfi.h:560-577); `cumIndex` (gbs-mesh/tfi.h:524-528); `mshCurvesLattice` (gbs-mesh/tfi.h:482-533); `mshCurvesLatticeL` (gbs-mesh/tfi.h:535-592); `blendData` (gbs-mesh/tfi.h:53-54); `blendFunctions` (gbs-mesh/tfi.h:18-34); `lineSum` (gbs-mesh/tfi.h:625-638); `latticeSum` (gbs-mesh/tfi.h:639-651); `tfiNode` (gbs-mesh/tfi.h:622-652); `tfiMesh` (gbs-mesh/tfi.h:594-657); `setSizes` (gbs-mesh/tfi.h:158-188); `setSizesN` (gbs-mesh/tfi.h:261-285); `tfiMeshCurves` (gbs-mesh/tfi.h:675-696); `setSizesL` (gbs-mesh/tfi.h:208-249); `setSizesNL` (gbs-mesh/tfi.h:296-319); `tfiMeshCurvesL` (gbs-mesh/tfi.h:699-727).

* `TfiBlend.lean`: `tfiBlend` (gbs-mesh/tfi.h:69-99).

* `Transform.lean`: `sqNorm` (gbs/vecop.ixx:170-177); `vnorm` (gbs/vecop.ixx:180-183); `cross3` (gbs/vecop.ixx:81-88); `translated` (gbs/transformpoints.h:26-30); `translatedH` (gbs/transformpoints.h:33-42); `rotated2` (gbs/transformpoints.h:58-66); `rotatedAbout` (gbs/transformpoints.h:68-74); `adimV` (gbs/vecop.ixx:265-276); `rotated3` (gbs/transformpoints.h:92-104); `scaled` (gbs/transformpoints.h:114-118); `scaledCoord` (gbs/transformpoints.h:126-138); `Ax2` (gbs/gbslib.h:32); `trfLocMat` (gbs/transformpoints.h:152-166); `trfMatrix` (gbs/transformpoints.h:168-184); `trfMatrixOf` (gbs/transformpoints.h:186-191); `trfLocMat2` (gbs/transformpoints.h:193-203); `trfMatrix2` (gbs/transformpoints.h:205-210); `transformed` (gbs/transformpoints.h:212-232); `transformed4` (gbs/transformpoints.h:234-254); `Curve.movePoles` (gbs/bscurve.h:454-461); `Curve.transform` (gbs/transform.h:11-22); `Curve.transformRat` (gbs/transform.h:24-40); `Surface.movePoles` (gbs/bssurf.h:797-804); `Surface.transform` (gbs/transform.h:42-53); `Surface.transformRat` (gbs/transform.h:55-71); `buildSegment` (gbs/bscbuild.h:22-31); `ellPole` (gbs/bscbuild.h:48-78); `buildEllipse` (gbs/bscbuild.h:42-91); `buildCircle` (gbs/bscbuild.h:101-105).

* `TriDeviation.lean`: `triDeviation` (inc/topology/baseGeom.h:200-218).

* `Trim.lean`: `trimBegin` (gbs/knotsfunctions.ixx:1012-1025); `trimEnd` (gbs/knotsfunctions.ixx:1036-1049); `trimKnots` (gbs/knotsfunctions.ixx:1061-1066); `Curve.trim` (gbs/bscurve.h:540-547).

* `Unify.lean`: `unflatPairsLoop` (gbs/knotsfunctions.ixx:184-195); `unflatPairs` (gbs/knotsfunctions.ixx:178-196); `unifyInto` (gbs/bsctools.h:182-213); `unifyAbsorb` (gbs/bsctools.h:242-251); `unifyApply` (gbs/bsctools.h:257-262); `unifyKnots` (gbs/bsctools.h:229-264); `unifyDegree` (gbs/bsctools.h:142-165).

* `UnifyCurves.lean`: `multEps` (gbs/knotsfunctions.ixx:198-204); `Curve.insertAll` (gbs/bscurve.h:405-412); `Curve.absorbAll` (gbs/bsctools.h:343-352); `unifyCurvesKnots` (gbs/bsctools.h:327-361); `unifyCurvesDegree` (gbs/bsctools.h:272-291); `unifiedCurves` (gbs/bsctools.h:376-393).

* `UnifyPair.lean`: `unifyPairInto` (gbs/bsctools.h:304-312); `unifyPair` (gbs/bsctools.h:295-313).

* `UnifySurf.lean`: `Surface.info` (gbs/bssurf.h:470-480); `unifyRows` (gbs/bsstools.h:9-27); `unifyUV` (gbs/bsstools.h:57-62, gbs/bsstools.h:77-80); `unifyAbsorbS` (gbs/bsstools.h:44-63); `unifyApplyS` (gbs/bsstools.h:69-81); `unifyKnotsS` (gbs/bsstools.h:29-82).

* `ValueLists.lean`: `transformThreshold2` (gbs/execution.h:77-83); `Surface.valuesAt` (gbs/bssurf.h:135-145); `Surface.values` (gbs/bssurf.h:165-177).

* `Wire.lean`: `TEdge` (inc/topology/edge.h:21-32, inc/topology/basetopo.h:9-40); `TWire` (inc/topology/wire.h:14-19); `edgeOfPoints` (inc/topology/edge.h:74-82); `edgeOfVertices` (inc/topology/edge.h:84-92); `edgeOfCurve` (inc/topology/edge.h:94-113); `setVertex1` (inc/topology/edge.h:139-153); `setVertex2` (inc/topology/edge.h:155-169); `wireClosed` (inc/topology/wire.h:217-228); `fuseVertex2` (inc/topology/wire.h:99-110); `wireOf` (inc/topology/wire.h:118-122); `addAtBack` (inc/topology/wire.h:146-153); `addAtFront` (inc/topology/wire.h:154-167); `addEdge` (inc/topology/wire.h:124-172); `addEdgeCopy` (inc/topology/wire.h:174-179); `addSegments` (tests/tests_topo.cpp:87-90); `tessellate` (inc/topology/edge.h:171-193).

* `Wrapped.lean`: `ACurve` (gbs/bscurve.h:25-187); `ASurface` (gbs/bssurf.h); `ACurve.reversed` (gbs/curveReversed.h:39-53); `ACurve.trimmed` (gbs/curvetrimmed.h:13-25); `ACurve.tangentExt` (gbs/curveextended.h:78-102); `ACurve.extended` (gbs/curveextended.h:66-158); `Composite.mk?` (gbs/curvecomposite.h:14-24); `compositeIdx` (gbs/curvecomposite.h:31-40); `Composite.value` (gbs/curvecomposite.h:29-44); `Composite.toA` (gbs/curvecomposite.h:25-28); `ACurve.reparametrized` (gbs/curvereparametrized.h:21-44); `ACurve.onSurface` (gbs/curveonsurface.h:31-64); `line` (gbs/curveline.h:17); `circle2d` (gbs/curvecircle.h:17-24); `minCoord3` (gbs/curvecircle.h:19); `circleValue` (gbs/curvecircle.h:86-98); `circle3d` (gbs/curvecircle.h:16); `circle3dAx1` (gbs/curvecircle.h:17-23); `dotV` (gbs/vecop.ixx:120-129); `ACurve.dDm` (gbs/bscurve.h:122-126); `ACurve.dDm2` (gbs/bscurve.h:133-142); `normal2` (gbs/bscanalysis.h:606-614); `ACurve.offset2d` (gbs/curveoffset.h:82-143); `ACurve.offset3d` (gbs/curveoffset.h:180-240); `revolution` (gbs/surfaceofrevolution.h:27-98).
