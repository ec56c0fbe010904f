{"id": "C01", "title": "Span search is total and correct", "statement": "For a sorted flat knot vector, find_span(n,p,u,k) terminates and returns an index i with p<=i<n such that k[i]<=u<k[i+1] whenever k[p]<=u<k[n]; at the upper end u=k[n] it returns a non-empty span ending at k[n]; it never reads outside the knot vector.", "quantifier": "every degree, every sorted knot vector with at least 2(p+1) knots, every parameter", "why_tests_cant": "The set of knot vectors and parameters is infinite and the binary search hits different branches for every multiplicity pattern.", "anchors": ["gbs/basisfunctions.ixx:find_span"]}
{"id": "C02", "title": "The p+1 span basis values are the Cox-de Boor basis functions", "statement": "basis_funcs(i,p,u,k) evaluated at the span of u returns exactly the values of the Cox-de Boor basis functions of index i-p..i, every other basis function being zero at u.", "quantifier": "every degree, sorted knot vector and parameter in the domain", "why_tests_cant": "Needs an induction over the degree; any test fixes a few degrees and knot vectors.", "anchors": ["gbs/basisfunctions.ixx:basis_funcs", "gbs/basisfunctions.ixx:basis_function"]}
{"id": "C03", "title": "Partition of unity and non-negativity of the basis", "statement": "For every parameter of the domain the basis values returned by basis_funcs are all >= 0 and sum to 1.", "quantifier": "every degree, sorted knot vector and parameter in the domain", "why_tests_cant": "Universal over real parameters and knot vectors.", "anchors": ["gbs/basisfunctions.ixx:basis_funcs", "gbs/basisfunctions.ixx:basis_function"]}
{"id": "C04", "title": "Curve value is the sum of basis times poles", "statement": "BSCurve::value(u) equals the sum over ALL poles of basis function times pole, although only p+1 poles around the span are read; evaluation of a well-formed curve in its domain never reads outside its arrays and never divides by zero.", "quantifier": "every well-formed curve (any degree, pole count, dimension) and every parameter in its bounds", "why_tests_cant": "Universal over curves; a test samples finitely many.", "anchors": ["gbs/basisfunctions.ixx:eval_value_decasteljau", "gbs/bscurve.h:BSCurve::value"]}
{"id": "C05", "title": "Convex hull property", "statement": "Every point of a curve is a convex combination of the p+1 poles active on its span; in particular every coordinate lies between the min and the max of the same coordinate of those poles.", "quantifier": "every well-formed non-rational curve and every parameter in its bounds", "why_tests_cant": "Universal over curves and parameters.", "anchors": ["gbs/bscurve.h:BSCurve::value", "gbs/basisfunctions.ixx:eval_value_decasteljau"]}
{"id": "C06", "title": "Clamped ends interpolate the end poles", "statement": "For a clamped knot vector value(bounds[0]) is the first pole and value(bounds[1]) is the last pole.", "quantifier": "every clamped curve", "why_tests_cant": "Universal over degrees, knots and poles.", "anchors": ["gbs/bscurve.h:Curve::begin", "gbs/bscurve.h:Curve::end", "gbs/basisfunctions.ixx:eval_value_decasteljau"]}
{"id": "C07", "title": "All value-evaluation algorithms agree", "statement": "eval_value_decasteljau (basis functions), eval_value_deboor_cox (triangular scheme) and the textbook sum eval_value_simple/basis_function return the same point.", "quantifier": "every well-formed curve and parameter in its domain", "why_tests_cant": "Equality of three algorithms over all inputs.", "anchors": ["gbs/basisfunctions.ixx:eval_value_decasteljau", "gbs/basisfunctions.ixx:eval_value_deboor_cox", "gbs/basisfunctions.ixx:basis_function"]}
{"id": "C08", "title": "value(u,d) is the d-th derivative", "statement": "On each knot span the curve is a polynomial in u, and value(u,d) is the value of the d-th derivative of that polynomial; for d greater than the degree it is the zero vector.", "quantifier": "every well-formed curve, every parameter, every derivation order", "why_tests_cant": "Derivation is a limit statement; finite differences can only approximate it at samples.", "anchors": ["gbs/basisfunctions.ixx:eval_value_decasteljau", "gbs/basisfunctions.ixx:ders_basis_funs", "gbs/basisfunctions.ixx:basis_function (derivative overload)"]}
{"id": "C09", "title": "All derivatives at once agree with one-by-one evaluation", "statement": "derivatives(u,n)[d] equals value(u,d) for every d<=n.", "quantifier": "every well-formed curve, parameter and order n", "why_tests_cant": "Universal over curves and orders.", "anchors": ["gbs/basisfunctions.ixx:eval_ders_decasteljau", "gbs/basisfunctions.ixx:ders_basis_funs", "gbs/basisfunctions.ixx:basis_ders", "gbs/bscurve.h:BSCurveGeneral::derivatives"]}
{"id": "C10", "title": "Out-of-bounds evaluation is reported, in-bounds evaluation never is", "statement": "value(u,d) throws the out-of-bounds exception iff u is more than the knot tolerance outside the curve's bounds.", "quantifier": "every curve and every parameter", "why_tests_cant": "Universal over parameters.", "anchors": ["gbs/bscurve.h:BSCurve::value", "gbs/bscurve.h:BSCurveRational::value"]}
{"id": "C11", "title": "Constructor accepts exactly the size-consistent curves", "statement": "The BSCurve constructors succeed iff knots are ordered and |poles| = |knots| - degree - 1, and accepted data is stored unchanged.", "quantifier": "every pole, knot and multiplicity vector and degree", "why_tests_cant": "Universal over inputs, including sizes for which unsigned subtraction wraps.", "anchors": ["gbs/bscurve.h:check_curve", "gbs/bscurve.h:BSCurveGeneral::BSCurveGeneral"]}
{"id": "C12", "title": "Unit weights make a rational curve equal to the polynomial one", "statement": "A rational curve whose weights are all equal to the same non-zero constant evaluates to the same points as the non-rational curve with the projected poles.", "quantifier": "every curve, weight and parameter", "why_tests_cant": "Universal over curves.", "anchors": ["gbs/basisfunctions.ixx:weight_projection", "gbs/basisfunctions.ixx:add_weights_coord", "gbs/bscurve.h:BSCurveRational::value"]}
{"id": "C13", "title": "Scaling all weighted poles leaves a rational curve unchanged", "statement": "scale_weights / scale_poles multiply every homogeneous pole by the same non-zero factor and therefore never change any evaluated point.", "quantifier": "every rational curve, factor and parameter", "why_tests_cant": "Universal over curves.", "anchors": ["gbs/basisfunctions.ixx:scale_weights", "gbs/basisfunctions.ixx:scale_poles", "gbs/basisfunctions.ixx:weight_projection"]}
{"id": "C14", "title": "Weights merge/separate round trip", "statement": "separate_weights after merge_weights (add_weights_coord) returns the original poles and weights whenever no weight is zero, and the converse composition returns the original homogeneous poles.", "quantifier": "every list of poles and weights", "why_tests_cant": "Universal over list lengths and values.", "anchors": ["gbs/basisfunctions.ixx:merge_weights", "gbs/basisfunctions.ixx:separate_weights", "gbs/basisfunctions.ixx:add_weights_coord"]}
{"id": "C15", "title": "Rational derivatives obey the quotient rule", "statement": "The vectors returned by the rational derivative evaluation satisfy A^(k) = sum_i binom(k,i) w^(i) C^(k-i) for every order, i.e. they are the derivatives of A/w.", "quantifier": "every homogeneous derivative list with non-zero weight, every order (within the integer range of the binomials)", "why_tests_cant": "Universal over orders.", "anchors": ["gbs/basisfunctions.ixx:eval_rational_ders", "gbs/math.ixx:binomial_law"]}
{"id": "C16", "title": "Knot insertion does not change the curve", "statement": "After insertKnot(u,m) with u strictly inside the domain the curve evaluates to the same point at every parameter.", "quantifier": "every well-formed curve, every insertion parameter, every multiplicity, every evaluation parameter", "why_tests_cant": "Universal in both the insertion and the evaluation parameter.", "anchors": ["gbs/knotsfunctions.ixx:insert_knots", "gbs/bscurve.h:BSCurveGeneral::insertKnot"]}
{"id": "C17", "title": "Knot insertion result shape", "statement": "insertKnot(u,m) adds exactly min(m, p-s) occurrences of u (s previous multiplicity), keeps the knots sorted, adds the same number of poles and leaves other knots untouched; at full multiplicity it is the identity.", "quantifier": "every well-formed curve, parameter strictly inside the domain, m>=1", "why_tests_cant": "Universal over curves.", "anchors": ["gbs/knotsfunctions.ixx:insert_knots"]}
{"id": "C18", "title": "Full-multiplicity insertion exposes the curve point as a pole", "statement": "When insertion brings u to multiplicity p, the index returned by insert_knots designates a pole equal to the curve value at u.", "quantifier": "every well-formed curve and parameter", "why_tests_cant": "Universal.", "anchors": ["gbs/knotsfunctions.ixx:insert_knots", "gbs/bssurf.h:isoU", "gbs/bssurf.h:isoV"]}
{"id": "C19", "title": "Inserting a knot zero times is the identity", "statement": "insertKnot(u,0) leaves poles and knots unchanged.", "quantifier": "every curve and parameter", "why_tests_cant": "Needs the full input space: the code takes the general path with r=0.", "anchors": ["gbs/knotsfunctions.ixx:insert_knots"]}
{"id": "C20", "title": "Trimming keeps the geometry", "statement": "trim(u1,u2) yields a curve defined on [min(u1,u2), max(u1,u2)] that evaluates to the same points there, whatever the order of the two parameters.", "quantifier": "every well-formed curve and every pair of parameters in its bounds", "why_tests_cant": "Universal over pairs of parameters.", "anchors": ["gbs/knotsfunctions.ixx:trim_begin", "gbs/knotsfunctions.ixx:trim_end", "gbs/knotsfunctions.ixx:trim", "gbs/bscurve.h:BSCurveGeneral::trim"]}
{"id": "C21", "title": "Reversal mirrors the parametrization", "statement": "After reverse() the curve satisfies value'(u) = value(u1+u2-u), derivatives changing sign with the order, and reversing twice restores the original curve.", "quantifier": "every clamped curve whose bounds are its end knots (what the constructors produce) and every parameter", "why_tests_cant": "Universal.", "anchors": ["gbs/bscurve.h:BSCurveGeneral::reverse"]}
{"id": "C22", "title": "changeBounds is an affine reparametrization", "statement": "After changeBounds(a,b) the curve satisfies value'(a+(b-a)t) = value(u1+(u2-u1)t), knots stay sorted, the new bounds are a and b, and changing back restores the knots.", "quantifier": "every well-formed curve and all a<b", "why_tests_cant": "Universal.", "anchors": ["gbs/knotsfunctions.ixx:change_bounds", "gbs/bscurve.h:BSCurveGeneral::changeBounds"]}
{"id": "C23", "title": "Flat/unflat knot round trip", "statement": "flat_knots(unflat_knots(k)) = k and unflat_knots(flat_knots(k,m)) = (k,m) for knots separated by more than the tolerance and positive multiplicities.", "quantifier": "every knot vector", "why_tests_cant": "Universal over lengths and multiplicities.", "anchors": ["gbs/knotsfunctions.ixx:flat_knots", "gbs/knotsfunctions.ixx:unflat_knots", "gbs/knotsfunctions.ixx:multiplicity"]}
{"id": "C24", "title": "Bezier degree elevation keeps the curve", "statement": "increase_bezier_degree(P,p,t) returns p+t+1 poles describing the same Bezier curve.", "quantifier": "every degree, elevation and control polygon for which the integer binomials are representable", "why_tests_cant": "Universal over degrees; the failure (int overflow of factorial from p+t=13) is only visible at high degree.", "anchors": ["gbs/knotsfunctions.ixx:increase_bezier_degree", "gbs/math.ixx:factorial", "gbs/math.ixx:binomial_law"]}
{"id": "C25", "title": "Derivative curve and integral curve", "statement": "build_derivate(c) evaluates at every u to value(u,1) of c; build_integrate(c,P0) starts at P0 and its derivative curve is c.", "quantifier": "every well-formed clamped curve of degree >=1", "why_tests_cant": "Universal.", "anchors": ["gbs/bscbuild.h:build_derivate", "gbs/bscbuild.h:build_integrate"]}
{"id": "C26", "title": "NURBS ellipse lies on the ellipse", "statement": "Every point evaluated on build_ellipse(r1,r2,c) satisfies ((x-cx)/r1)^2+((y-cy)/r2)^2=1.", "quantifier": "all radii, centres and parameters in [0,1]", "why_tests_cant": "Algebraic identity over all parameters.", "anchors": ["gbs/bscbuild.h:build_ellipse", "gbs/bscbuild.h:build_circle"]}
{"id": "C27", "title": "Surface value is the tensor-product sum", "statement": "BSSurface::value(u,v) equals the double sum over all poles of N_i(u) M_j(v) P_ij with P_ij stored at i + nPolesU*j; evaluation never reads outside its arrays.", "quantifier": "every well-formed surface and parameters in its bounds", "why_tests_cant": "Universal.", "anchors": ["gbs/basisfunctions.ixx:eval_value_decasteljau (surface)", "gbs/bssurf.h:BSSurface::value"]}
{"id": "C28", "title": "Inverting U and V twice is the identity and swaps the parameters", "statement": "invertUV satisfies value'(v,u) = value(u,v) and is an involution; transpose_poles (plain and blocked) are involutive matrix transpositions.", "quantifier": "every surface, every grid size and block size", "why_tests_cant": "Universal over sizes.", "anchors": ["gbs/bssurf.h:inverted_uv_poles", "gbs/bssurf.h:invertUV", "gbs/polestools.h:transpose_poles"]}
{"id": "C29", "title": "Surface knot insertion keeps the surface", "statement": "insertKnotU/insertKnotV never change any evaluated point of the surface.", "quantifier": "every well-formed surface, parameter and multiplicity", "why_tests_cant": "Universal.", "anchors": ["gbs/bssurf.h:insertKnotU", "gbs/bssurf.h:insertKnotV"]}
{"id": "C30", "title": "Iso-parametric curves lie on the surface", "statement": "isoU(u)(v) = S(u,v) and isoV(v)(u) = S(u,v).", "quantifier": "every well-formed surface, every iso parameter (ends and existing knots included) and every parameter", "why_tests_cant": "Universal; existing-knot and end cases use different code paths.", "anchors": ["gbs/bssurf.h:isoU", "gbs/bssurf.h:isoV", "gbs/knotsfunctions.ixx:insert_knots"]}
{"id": "C31", "title": "pole(i,j) designates the pole of U-index i and V-index j", "statement": "BSSurfaceGeneral::pole(i,j) returns the pole multiplying N_i(u) M_j(v).", "quantifier": "every surface and indices", "why_tests_cant": "Universal; only visible on non-square pole grids.", "anchors": ["gbs/bssurf.h:pole", "gbs/bssurf.h:polesU", "gbs/bssurf.h:polesV"]}
{"id": "C32", "title": "Parallel evaluation and batch building are schedule independent", "statement": "values(u_list) and build_batch return, for every interleaving of the worker tasks, exactly the serial result; when elements throw, build_batch reports the exception of the lowest failing index.", "quantifier": "every input list and every schedule", "why_tests_cant": "The number of interleavings is unbounded; tests see a few.", "anchors": ["gbs/execution.h:transform_threshold", "gbs/execution.h:build_batch", "gbs/bscurve.h:Curve::values"]}
{"id": "C33", "title": "Uniform ranges", "statement": "make_range(v1,v2,n) has n elements, starts at v1, ends at v2, and is equally spaced; it throws iff n<2; the 2D/3D grids enumerate the full product in row-major order.", "quantifier": "all bounds and sizes", "why_tests_cant": "Universal.", "anchors": ["gbs/math.ixx:make_range"]}
{"id": "C34", "title": "Curve parametrization is increasing", "statement": "curve_parametrization returns as many parameters as points, starting at 0, non-decreasing (strictly when consecutive points differ), and ending at 1 when normalized.", "quantifier": "every point list and mode", "why_tests_cant": "Universal.", "anchors": ["gbs/knotsfunctions.ixx:curve_parametrization", "gbs/knotsfunctions.ixx:adimension"]}
{"id": "C35", "title": "Band LU solves the system it factorizes", "statement": "If factorize_inplace accepts a banded matrix then solve(b) returns x with A x = b for the matrix A that was assembled; no access leaves the band storage.", "quantifier": "every size, bandwidth, matrix and right-hand side", "why_tests_cant": "Universal over dimensions.", "anchors": ["gbs/bscinterp.h:band_lu"]}
{"id": "C36", "title": "Interpolation passes through its data", "statement": "Whenever the banded collocation system is accepted, the curve returned by interpolate evaluates (with the requested derivation order) to the given value at every constraint parameter.", "quantifier": "every set of points/constraints, parameters and degrees", "why_tests_cant": "Universal.", "anchors": ["gbs/bscinterp.h:build_poles", "gbs/bscinterp.h:interpolate"]}
{"id": "C37", "title": "Building a face loop yields a closed ring", "statement": "make_shared_h_face/make_loop over n>=2 distinct half-edges makes next and previous inverse to each other, makes the ring visited by the face getters exactly the given list, and attaches all edges to the face.", "quantifier": "every list of distinct half-edges and every prior mesh state", "why_tests_cant": "Universal over list lengths and heap states.", "anchors": ["inc/topology/halfEdgeMeshData.h:make_loop", "inc/topology/halfEdgeMeshData.h:make_shared_h_face", "inc/topology/halfEdgeMeshGetters.h:getFaceEdges"]}
{"id": "C38", "title": "Edge flip preserves mesh validity", "statement": "flip on two distinct adjacent triangles of a valid mesh yields a valid mesh (rings, opposite involution, opposite edges joining the same vertices, vertex-to-edge links) in which the shared diagonal connects the two apexes, and leaves every other face unchanged; without a common edge it changes nothing.", "quantifier": "every valid mesh state and pair of faces", "why_tests_cant": "Universal over heap states.", "anchors": ["inc/topology/halfEdgeMeshEditors.h:flip", "inc/topology/halfEdgeMeshEditors.h:associate", "inc/topology/halfEdgeMeshGetters.h:getCommonEdges"]}
{"id": "C39", "title": "Adding a face on a boundary edge preserves mesh validity", "statement": "add_face on a boundary edge of a valid mesh adds one triangle that is the mirror of the edge, and refuses (no change) when the edge already has an opposite or belongs to another face.", "quantifier": "every valid mesh state", "why_tests_cant": "Universal over heap states.", "anchors": ["inc/topology/halfEdgeMeshEditors.h:add_face", "inc/topology/halfEdgeMeshEditors.h:make_opposite"]}
{"id": "C40", "title": "Fan re-triangulation closes the cavity", "statement": "add_vertex on a closed boundary loop of n edges creates n triangles around the new vertex whose mutual edges are pairwise opposite, recycling the loop edges with their outer opposites.", "quantifier": "every closed loop and mesh state", "why_tests_cant": "Universal over loop lengths.", "anchors": ["inc/topology/halfEdgeMeshEditors.h:add_vertex"]}
{"id": "C41", "title": "Splitting an edge leaves no crack", "statement": "splitHalfEdge on an interior edge yields a valid mesh in which every edge that had a neighbour still has one and the new vertex's edge link designates an edge ending at it.", "quantifier": "every valid mesh state", "why_tests_cant": "Universal over heap states.", "anchors": ["inc/topology/halfEdgeMeshEditors.h:splitHalfEdge"]}
{"id": "C42", "title": "Point insertion conserves the meshed area and orientation", "statement": "boyerWatson either leaves the mesh untouched or replaces a set of triangles by strictly counter-clockwise triangles fanning from the new point with the same total signed area.", "quantifier": "every mesh of triangles and every point", "why_tests_cant": "Universal over meshes and points.", "anchors": ["inc/topology/tessellations.h:boyerWatson", "inc/topology/tessellations.h:is_star_shaped", "inc/topology/halfEdgeMeshEditors.h:add_vertex", "inc/topology/halfEdgeMeshEditors.h:takeClosedLoops"]}
{"id": "C43", "title": "Closed-loop extraction is a partition into chains", "statement": "takeClosedLoops returns lists whose concatenation is a permutation of its input, in which each edge starts where the previous one ends; it terminates.", "quantifier": "every list of half-edges", "why_tests_cant": "Universal.", "anchors": ["inc/topology/halfEdgeMeshEditors.h:takeClosedLoops"]}
{"id": "C44", "title": "Boundary test of a vertex", "statement": "is_boundary(v) is true exactly when the fan of faces around v is open.", "quantifier": "every valid mesh", "why_tests_cant": "Universal.", "anchors": ["inc/topology/halfEdgeMeshGeomTests.h:is_boundary"]}
{"id": "C45", "title": "Geometric predicates", "statement": "orient_2d is twice the signed area (antisymmetric, translation invariant); in_circle is positive exactly for points strictly inside the circumcircle of a counter-clockwise triangle; in_triangle and barycentric coordinates agree with the convex hull of the triangle; circle_center is equidistant from the three points.", "quantifier": "all points of the plane", "why_tests_cant": "Universal over coordinates.", "anchors": ["inc/topology/baseGeom.h:orient_2d", "inc/topology/baseIntersection.h:in_circle", "inc/topology/baseIntersection.h:in_triangle", "inc/topology/baseGeom.h:circle_center"]}
{"id": "C46", "title": "Frame-to-frame transformation", "statement": "build_trf_matrix(R_from,R_to) maps the origin and axes of R_from to those of R_to.", "quantifier": "all orthonormal frames", "why_tests_cant": "Universal.", "anchors": ["gbs/transformpoints.h:build_trf_loc_and_matrix"]}
{"id": "C47", "title": "Affine maps commute with curves", "statement": "Transforming the poles of a (rational) curve by an affine map (translate, rotate, scale) transforms every evaluated point by the same map.", "quantifier": "every curve, parameter and affine map", "why_tests_cant": "Universal.", "anchors": ["gbs/transform.h:transform", "gbs/transformpoints.h"]}
{"id": "C48", "title": "Wrapped curves", "statement": "CurveReversed, CurveTrimmed, CurveExtended, CurveComposite and CurveReparametrized evaluate to the point/derivative of the wrapped curve at the mapped parameter, with the chain rule for derivatives.", "quantifier": "every wrapped curve, parameter and order", "why_tests_cant": "Universal.", "anchors": ["gbs/curveReversed.h", "gbs/curvetrimmed.h", "gbs/curveextended.h", "gbs/curvecomposite.h", "gbs/curvereparametrized.h"]}
{"id": "C49", "title": "Knot removal", "statement": "remove_knot undoes an insertion exactly; more generally a knot that can be removed without changing the curve is removed and the curve is kept; whenever it reports t removals there are t knots and t poles fewer, and when it reports none the curve is unchanged.", "quantifier": "every curve, interior knot, number of removals up to the multiplicity, and tolerance", "why_tests_cant": "Universal.", "anchors": ["gbs/knotsfunctions.ixx:remove_knot"]}
{"id": "C50", "title": "Making curves compatible", "statement": "unify_degree gives all curves the greatest degree without changing any of them as a map; unify_knots gives them one knot vector, on the interval of the first curve, whose multiplicities are the greatest ones of the rescaled curves, each curve staying the same up to the affine change of parameter.", "quantifier": "every non-empty list of clamped curves whose (rescaled) knots are equal or further apart than the tolerance", "why_tests_cant": "Universal.", "anchors": ["gbs/bsctools.h:unify_degree", "gbs/bsctools.h:unify_knots"]}
{"id": "C51", "title": "Ordered insertion", "statement": "insert_ordered / insert_unique_ordered keep a sorted list sorted and add exactly the requested element (only if absent within tolerance, for the unique variant).", "quantifier": "every sorted list and value", "why_tests_cant": "Universal.", "anchors": ["gbs/knotsfunctions.ixx:insert_ordered", "gbs/knotsfunctions.ixx:insert_unique_ordered"]}
{"id": "C52", "title": "Continuity at the knots", "statement": "At an interior knot of multiplicity m a curve of degree p has continuous value and derivatives up to the order p-m; everywhere else all orders are continuous.", "quantifier": "every well-formed curve, every parameter of its bounds and every order", "why_tests_cant": "A limit statement over all parameters near a knot cannot be sampled.", "anchors": ["gbs/bscurve.h:BSCurve::value", "gbs/basisfunctions.ixx:eval_value_decasteljau"]}
{"id": "C53", "title": "Rational convex hull", "statement": "A rational curve with positive weights has a positive weight at every parameter of its bounds, evaluates without failure, and every point is a convex combination of the projections of the p+1 poles active on its span.", "quantifier": "every well-formed rational curve with positive weights and every parameter in its bounds", "why_tests_cant": "Universal over weights and parameters; a division by a vanishing weight is only met at isolated parameters.", "anchors": ["gbs/bscurve.h:BSCurveRational::value", "gbs/basisfunctions.ixx:eval_rational_value_simple", "gbs/basisfunctions.ixx:weight_projection"]}
{"id": "C54", "title": "Generated knot vectors are admissible", "statement": "build_simple_mult_flat_knots (uniform and averaged) and build_mult_flat_knots return vectors of the size the curve constructors require, sorted, with p+1 knots at each bound and the documented interior knots, so that a curve built on them is valid.", "quantifier": "All degrees p, all pole counts at least p+1, all strictly increasing parameter lists, all multiplicities", "why_tests_cant": "Tests use a few degrees and point counts.", "anchors": ["gbs/knotsfunctions.ixx:35-65", "gbs/knotsfunctions.ixx:77-96", "gbs/knotsfunctions.ixx:260-278"]}
{"id": "C55", "title": "Derivatives of rational surfaces follow the quotient rule", "statement": "The mixed derivatives returned by a rational surface are those of the quotient of its homogeneous numerator by its weight: with the derivatives of numerator and weight they satisfy the two-variable Leibniz rule at every order, the table of derivatives and the single evaluations agree, and the value is the projection of the homogeneous value.", "quantifier": "every well-formed rational surface, every pair of parameters where the weight does not vanish, every pair of orders up to 20", "why_tests_cant": "Nested sums with binomial coefficients over unbounded degrees and orders; tests check first orders of a sphere.", "anchors": ["gbs/basisfunctions.ixx:eval_rational_ders (surface)", "gbs/bssurf.h:BSSurfaceRational::value", "gbs/bssurf.h:derivatives"]}
{"id": "C56", "title": "Reversal, change of bounds and trimming of surfaces", "statement": "reverseU/reverseV, changeUBounds/changeVBounds and trimU/trimV are reparametrizations or restrictions: each point of the new surface is the point of the old one at the corresponding parameters, and the other direction is not affected.", "quantifier": "every well-formed surface with clamped knots, all parameters, new bounds and trimming parameters", "why_tests_cant": "Universal over nets, degrees, knots and parameters.", "anchors": ["gbs/bssurf.h:reverseU", "gbs/bssurf.h:reverseV", "gbs/bssurf.h:changeUBounds", "gbs/bssurf.h:changeVBounds", "gbs/bssurf.h:trimU", "gbs/bssurf.h:trimV"]}
{"id": "C57", "title": "Error of a knot removal within tolerance", "statement": "When remove_knot with a tolerance reports T removals of a knot, the new curve is at a distance at most T times the tolerance from the old one at every parameter.", "quantifier": "every curve with clamped or unclamped knots, every interior knot of multiplicity at most the degree, every tolerance", "why_tests_cant": "A bound over a continuum of parameters for all curves.", "anchors": ["gbs/knotsfunctions.ixx:remove_knot (553-681)", "gbs/bscurve.h:removeKnot"]}
{"id": "C58", "title": "Degree elevation keeps the curve", "statement": "increase_degree returns a spline of degree p+t, with every knot of multiplicity raised by t, and the same point and derivatives at every parameter.", "quantifier": "every well-formed clamped curve with interior multiplicities at most the degree and knots separated by more than the knot tolerance, p+t at most 12", "why_tests_cant": "Universal over degrees, knots, multiplicities and poles; combines insertion, Bezier elevation and removal.", "anchors": ["gbs/knotsfunctions.ixx:increase_degree", "gbs/knotsfunctions.ixx:bezier_segments", "gbs/knotsfunctions.ixx:remove_knot", "gbs/bscurve.h:increaseDegree"]}
{"id": "C59", "title": "Degree elevation of surfaces", "statement": "increaseDegreeU and increaseDegreeV raise the degree and every knot multiplicity of their direction by one, leave the other direction and the bounds alone, and keep every point and mixed derivative.", "quantifier": "every well-formed surface with clamped knots in the elevated direction, interior multiplicities at most the degree and knots separated by more than the tolerance, elevated degree at most 12", "why_tests_cant": "Universal over nets, degrees and knots; the knot vector is rebuilt row by row.", "anchors": ["gbs/bssurf.h:increaseDegreeU", "gbs/bssurf.h:increaseDegreeV"]}
{"id": "C60", "title": "Segments", "statement": "build_segment(p1,p2) is the affine curve from p1 to p2 over [0,1] (normalized) or over [0,|p2-p1|] at unit speed.", "quantifier": "all pairs of distinct points in any dimension, or any pair with the normalized parameter", "why_tests_cant": "Universal over points and parameters.", "anchors": ["gbs/bscbuild.h:build_segment"]}
{"id": "C61", "title": "Curves on surfaces", "statement": "CurveOnSurface::value(u,d) is the d-th derivative of the composition of the surface with the 2d curve, for d = 0, 1, 2; higher orders throw.", "quantifier": "every twice differentiable 2d curve and surface whose evaluations are right, every parameter", "why_tests_cant": "A wrong term of a chain rule is invisible on curves where the corresponding derivative vanishes.", "anchors": ["gbs/curveonsurface.h"]}
{"id": "C62", "title": "Curvilinear derivatives and offset curves", "statement": "d_dm and d_dm2 are the unit tangent and the curvature vector (first and second derivatives with respect to arc length); the offset of a plane curve is at the offset distance along the normal, and the derivatives it returns are its derivatives.", "quantifier": "every curve with the needed derivatives, every regular parameter, every offset function", "why_tests_cant": "Formulas with square roots and third derivatives; tests compare a few values.", "anchors": ["gbs/bscurve.h:Curve::d_dm", "gbs/bscurve.h:Curve::d_dm2", "gbs/curveoffset.h"]}
{"id": "C63", "title": "Analytic circles", "statement": "Circle2d and Circle3d are circles of the given radius and centre, in the plane of the frame, and their derivatives of every order are right.", "quantifier": "every radius, centre, frame, parameter and order", "why_tests_cant": "Universal over frames, parameters and orders.", "anchors": ["gbs/curvecircle.h"]}
{"id": "C64", "title": "Surfaces of revolution", "statement": "SurfaceOfRevolution is the rotation of the profile about the axis of the frame: points keep their height and distance to the axis, and the mixed derivatives are right.", "quantifier": "every profile curve, orthonormal frame, parameters and orders", "why_tests_cant": "Universal over frames, profiles and orders.", "anchors": ["gbs/surfaceofrevolution.h"]}
{"id": "C65", "title": "Analytic lines", "statement": "Line(p1,p2) runs at unit speed from p1, meets p2 at their distance, and returns its derivatives of every order.", "quantifier": "every pair of distinct points, every parameter and order", "why_tests_cant": "Universal.", "anchors": ["gbs/curveline.h"]}
{"id": "C66", "title": "Segment predicates", "statement": "seg_seg_strict_intersection is true exactly when two segments that are not degenerate or nearly parallel cross at interior parameters; seg_D_strict_end_intersection likewise for a segment and a half-line; on_segment accepts all the points of a segment, and with a null tolerance only these.", "quantifier": "all points of the plane, all positive tolerances", "why_tests_cant": "Universal over the plane; tests use a few points.", "anchors": ["inc/topology/baseIntersection.h:seg_seg_strict_intersection", "inc/topology/baseIntersection.h:on_segment", "inc/topology/baseIntersection.h:seg_D_strict_end_intersection"]}
{"id": "C67", "title": "Point in polygon and orientation of loops", "statement": "is_inside is true on the boundary and, off the sides of any triangulation of the region bounded by the edges, exactly in the interior of the region, whatever the order and the direction of the edges; are_edges_2d_ccw is true of the boundary of a region run counter-clockwise and false of the reverse.", "quantifier": "every list of edges bounding a region cut in triangles, with or without holes, every point", "why_tests_cant": "The cases of a ray through a vertex are a null set that random tests miss.", "anchors": ["inc/topology/halfEdgeMeshGeomTests.h:is_inside", "inc/topology/halfEdgeMeshGeomTests.h:are_edges_2d_ccw"]}
{"id": "C68", "title": "Recovery of constrained edges", "statement": "recoverEdge, on a triangulation of counter-clockwise triangles in which the segment between two vertices meets no other vertex, leaves a triangulation with the edge between them.", "quantifier": "every valid mesh of counter-clockwise triangles and every pair of vertices", "why_tests_cant": "Universal over meshes; no test of the repository calls it.", "anchors": ["inc/topology/edgeRecovery.h:recoverEdge"]}
{"id": "C69", "title": "Insertion keeps triangulations Delaunay", "statement": "boyerWatson, on a Delaunay triangulation of a convex region and a point strictly inside the region, returns a Delaunay triangulation of the same region whose vertices are those of before and the point; no vertex is lost.", "quantifier": "every Delaunay triangulation of a convex region and every point strictly inside", "why_tests_cant": "Cocircular and aligned points are measure-zero events that random tests miss.", "anchors": ["inc/topology/tessellations.h:boyerWatson"]}
{"id": "C70", "title": "Delaunay triangulation of a list of points", "statement": "delaunay2DBoyerWatson returns counter-clockwise triangles that do not overlap, with corners in the list and no point of the list strictly inside their circles; three points whose circle has, on it or inside, no other point and no corner of the encompassing rectangle make one of the triangles.", "quantifier": "every list of points not all on one horizontal or vertical line, in any order and with repetitions, every positive margin", "why_tests_cant": "Universal over lists of points of every length, cocircular and aligned ones included.", "anchors": ["inc/topology/tessellations.h:delaunay2DBoyerWatson", "inc/topology/halfEdgeMeshGetters.h:getEncompassingMesh", "inc/topology/halfEdgeMeshEditors.h:remove_faces"]}
{"id": "C71", "title": "Removal of the faces of a vertex", "statement": "remove_faces keeps exactly the faces that do not have the vertex; the links of the others are those of a valid mesh, and a half-edge loses its opposite exactly when the face across it is removed.", "quantifier": "every valid mesh and every vertex", "why_tests_cant": "Universal over heap states.", "anchors": ["inc/topology/halfEdgeMeshEditors.h:remove_faces"]}
{"id": "C72", "title": "Repair of the links of the vertices", "statement": "repairVertexEdges, on a mesh whose faces are valid, whatever half-edges the vertices designate, makes every vertex of a face designate a half-edge of a face that ends at it and changes nothing else.", "quantifier": "every valid mesh, with arbitrary links from the vertices", "why_tests_cant": "Universal over heap states.", "anchors": ["inc/topology/halfEdgeMeshEditors.h:repairVertexEdges"]}
{"id": "C73", "title": "Faces around a vertex and half-edge between two vertices", "statement": "getFacesAttachedToVertex lists, once each, the faces of the half-edges that end at the vertex and are face to face with the one it designates, for open and closed fans; findHalfEdge returns a half-edge from the first vertex to the second, and finds it whenever there is one in that fan.", "quantifier": "every valid mesh without half-edge from a vertex to itself, every vertex that designates a half-edge ending at it", "why_tests_cant": "Universal over heap states; termination of the walks is a property of all of them.", "anchors": ["inc/topology/halfEdgeMeshGetters.h:getFacesAttachedToVertex", "inc/topology/halfEdgeMeshGetters.h:findHalfEdge", "inc/topology/halfEdgeMeshGetters.h:getFaceEdge"]}
{"id": "C74", "title": "Exact sign of the orientation predicate", "statement": "orient2d, evaluated with rounded floating point operations, never reads or writes outside its arrays and returns a number whose sign is that of the exact determinant of the three points: positive, negative or zero. For double this holds for coordinates that are multiples of 2^-457 and at most 2^348 in magnitude, whatever happens above 2^1023.", "quantifier": "every triple of points with representable coordinates, every precision of at least eight bits", "why_tests_cant": "The inputs that reach the last stage are a vanishing fraction of all triples, and the error bounds must hold for all roundings.", "anchors": ["inc/topology/robustPredicates.h:orient2d", "inc/topology/robustPredicates.h:orient2d_adapt"]}
{"id": "C75", "title": "Error-free transformations", "statement": "two_sum, two_diff, two_product, and fast_two_sum when the first number is not the smaller one, return the floating point number nearest to the exact result and the exact rest; fast_expansion_sum_zeroelim adds two expansions exactly, writes at most as many components as both have and ends with a component that has the sign of the sum.", "quantifier": "every pair of floating point numbers, every pair of nonoverlapping expansions of any length, every precision of at least four bits", "why_tests_cant": "Universal over pairs of floating point numbers, about 2^128 for double, and over expansions of any length.", "anchors": ["inc/topology/robustPredicates.h:two_sum", "inc/topology/robustPredicates.h:two_diff", "inc/topology/robustPredicates.h:two_product", "inc/topology/robustPredicates.h:fast_expansion_sum_zeroelim"]}
{"id": "C76", "title": "The interpolation systems are regular", "statement": "For strictly increasing parameters, exactly one list of poles gives a curve of the chosen degree, on the averaged knots, through the points; and exactly one gives a curve of degree 2 nc - 1, on the knots of interpolate with nc constraints for each parameter, whose values and derivatives up to order nc - 1 are the given ones.", "quantifier": "every list of strictly increasing parameters, every degree below the number of points, every number of constraints, every points and derivatives", "why_tests_cant": "Regularity of a family of matrices of every size, for every spacing of the parameters.", "anchors": ["gbs/bscinterp.h:interpolate", "gbs/bscinterp.h:build_poles"]}
{"id": "C77", "title": "Surfaces through a grid of points and through constraints", "statement": "Interpolating a grid of points by a surface returns a well formed clamped surface of the chosen degrees which, at the parameters averaged over the rows and over the columns, takes the value of each point of the grid, and throws when the points do not fill the grid; interpolating constraints returns a surface whose value or partial derivative at each constraint is the prescribed one as soon as the constraints determine the poles, and throws when their number does not fill the poles; extract_U and extract_V return a row and a column of the grid and throw outside of it.", "quantifier": "every grid of points without a degenerate row or column average, every pair of degrees between 1 and 24 that the grid allows, every list of constraints that determines the poles", "why_tests_cant": "Universal over grids and constraint lists of any size; a test checks a few surfaces with a tolerance.", "anchors": ["gbs/bssinterp.h:interpolate", "gbs/bssinterp.h:build_poles", "gbs/bssinterp.h:extract_U", "gbs/bssinterp.h:extract_V"]}
{"id": "C78", "title": "Least-squares approximation by curves", "statement": "Approximating points by a curve, for given knots or for a number of poles (uniform knots between the first and the last parameter), returns the only curve on these knots whose sum of squared distances to the points, at their parameters, is the least; with fixed bounds it is the only one among the curves that start at the first point and end at the last one. Fewer points than poles, or fewer poles than the degree needs, are refused by an exception.", "quantifier": "every list of points and parameters of the domain that determine the poles, every clamped knots, every degree up to 24, every dimension", "why_tests_cant": "Optimality is a comparison with all the other curves; a test compares with a tolerance on a few sets of points.", "anchors": ["gbs/bscapprox.h:approx", "gbs/bscapprox.h:approx_bound_fixed", "gbs/bscapprox.h:solve_approx_banded", "gbs/bscapprox.h:check_approx_sizes", "gbs/knotsfunctions.ixx:build_poles_matrix"]}
{"id": "C79", "title": "Refinement of an approximation", "statement": "refine_approx ends for all tolerances, inserts at most n_max knots, each at the parameter of a point strictly inside the domain and not yet a knot, keeps the degree and the bounds, and returns a curve that is a least-squares approximation on its knots and is not farther from the points than the given one. As soon as a point well inside a span is away from the curve, the parameter of one of the farthest such points becomes a knot, for every domain; otherwise the curve is returned as it is.", "quantifier": "every curve, list of points and parameters, tolerances and number of turns", "why_tests_cant": "The loop depends on the distances of the successive curves to all the points.", "anchors": ["gbs/bscapprox.h:refine_approx", "gbs/bscapprox.h:approx"]}
{"id": "C80", "title": "Least-squares approximation by surfaces", "statement": "Approximating a grid of points, or a list of constraints on values and partial derivatives, by a surface on given knots returns the poles of the only surface on these knots whose sum of squared distances to the points or constraints is the least; a grid determines the poles exactly when the parameters of each direction do. Fewer points than poles, or fewer poles in a direction than its degree needs, are refused by an exception.", "quantifier": "every grid or list of constraints that determines the poles, every pair of clamped knot vectors, every pair of degrees up to 24, every dimension", "why_tests_cant": "Optimality is a comparison with all the other surfaces; the separable solve is only equivalent to the full problem by an argument on all grids.", "anchors": ["gbs/bssapprox.h:approx", "gbs/bssapprox.h:check_approx_sizes_surf"]}
{"id": "C81", "title": "Junction of two curves", "statement": "Joining two curves of which the second starts where the first ends, polynomial, rational or one of each, gives one well formed curve whose degree is the greatest of both, equal to the first curve up to its end and then to the second one with its parameter shifted, derivatives included. When the ends differ the joined curve passes through their middle and keeps the curves before the last interior knot of the first and after the first interior knot of the second.", "quantifier": "every pair of clamped curves of degrees 1 to 12, every parameter and order of derivation, every dimension", "why_tests_cant": "The degrees are equalised by degree elevation and the knot vectors are glued by index arithmetic; a test compares a few points of a few curves.", "anchors": ["gbs/bsctools.h:join", "gbs/bsctools.h:unify_curves_degree"]}
{"id": "C82", "title": "Extension of a curve", "statement": "Extending a curve to a point, at its end or at its start, keeps the curve with its bounds, parameters and derivatives, and adds a piece that meets the derivatives of the curve up to the asked continuity and below the degree, and ends at the point, with a null second derivative there when a natural end is asked for. Extending by a length goes to the point at this length on the end tangent, at the speed of the curve.", "quantifier": "every clamped curve of degree 1 to 12, every point, continuity, end and length, every dimension", "why_tests_cant": "The added piece solves an interpolation system whose size and knots depend on the degree, the continuity and the natural end; it is glued after two reversals and a shift of the knots.", "anchors": ["gbs/bsctools.h:extention_to_point", "gbs/bsctools.h:extended_to_point", "gbs/bsctools.h:extended"]}
{"id": "C83", "title": "Loft of a list of sections", "statement": "The loft of a list of sections, of any degrees and knots, with given parameters and knots, with given parameters only or with none, is a well formed surface with the greatest degree of the sections along them; its iso-curve at the parameter of each section is this section, brought to the bounds of the first one, with all its derivatives, also after the projection of rational sections. Without given parameters they are increasing averages from 0 to 1 of the chord lengths of the rows of poles. Making sections compatible again, as the code does twice, changes nothing.", "quantifier": "every list of clamped sections of degrees 1 to 12, any number of them, all parameters and knots across that interlace, every dimension", "why_tests_cant": "The sections go through degree elevation, knot insertion and a linear system; that each of them is kept exactly is a statement about all lists of curves.", "anchors": ["gbs/loft/loftBase.h:build_loft_surface_poles", "gbs/loft/loftGeneric.h:loft_generic", "gbs/knotsfunctions.ixx:build_poles_matrix", "gbs/bsctools.h:unify_curves_knots"]}
{"id": "C84", "title": "Junction and splitting of surfaces", "statement": "Joining two surfaces with the same knots along V, whose facing borders are the same points, gives one well formed surface equal to the first one on its domain and to the second one, shifted, after it, partial derivatives included; when the borders differ the border of the first one is kept and the second surface is kept from its first interior knot on. Other knots along V are refused by an exception. Splitting a surface at a parameter gives two surfaces equal to it on each side.", "quantifier": "every pair of clamped surfaces of degrees 1 to 12 along U, every parameter of the domain and order of derivation, every dimension, rational or not", "why_tests_cant": "The second surface is kept only if its first poles are the last poles of the first one, which follows from the equality of all the points of the borders; a test looks at a few points.", "anchors": ["gbs/bsstools.h:join", "gbs/bsstools.h:split_u", "gbs/bsstools.h:split_v"]}
{"id": "C85", "title": "Unification of the knots of a set of surfaces", "statement": "Making surfaces of the same degrees compatible brings all of them to the bounds of the first one and to the same two knot vectors, in which each knot has the greatest of its multiplicities in the surfaces, no more; every surface keeps its points and all its partial derivatives, up to the affine change of its parameters, and its grid of poles fits the new knots.", "quantifier": "every non-empty list of clamped surfaces of the same degrees, any sizes, knots and bounds, every parameter and order of derivation, every dimension", "why_tests_cant": "The knots are inserted row by row, then column by column on transposed poles, against the knots left by the last row; a test with a few equal surfaces does not see a row that starts from other knots.", "anchors": ["gbs/bsstools.h:unify_knots", "gbs/bssurf.h:info"]}
{"id": "C86", "title": "Gordon surface of a network of curves", "statement": "The Gordon surface of two families of curves, each of one family crossing each of the other, is a well formed surface with the greatest degree of each family, on the bounds of the curves, that contains every curve of both families with all its derivatives: the iso-curve at the crossing parameter is the curve. A surface is returned only if the crossings found are within the tolerance, at the same parameters for all the curves; otherwise an exception is thrown.", "quantifier": "every pair of families of at least two clamped curves of degrees 1 to 12, any numbers of curves, knots and crossings, every dimension", "why_tests_cant": "The surface is the sum of two lofts minus the interpolation of the crossings, brought to common degrees and knots; that every curve is kept needs the three surfaces to agree at all its points, which a test sees at a few ones.", "anchors": ["gbs/bssbuild.h:gordon", "gbs/bssbuild.h:build_intersections", "gbs/bssbuild.h:get_max_degree"]}
{"id": "C87", "title": "Loft of sections along a spine", "statement": "The loft of at least two sections along a spine is a well formed surface, on the interval of the first section, whose iso-curve at the parameter of each section is this section, with all its derivatives; its derivative across each section is the curve whose poles are the tangent of the spine, at its point nearest to the section, scaled by the distances of the poles to those of the neighbouring sections over those of the points of the spine: at every point a multiple of this tangent, never reversed, also after the projection of rational sections. Less than two sections are refused by an exception.", "quantifier": "every list of clamped sections of degrees 1 to 12, any number of them, every spine, every dimension, rational or not", "why_tests_cant": "Each column of poles solves a linear system with a point and a tangent at each section, on knots that do not depend on the sections; whether it can be solved depends on all the distances.", "anchors": ["gbs/bssbuild.h:loft", "gbs/bssbuild.h:get_v_aligned_poles", "gbs/bssbuild.h:get_tg_from_spine", "gbs/loft/loftBase.h:build_loft_surface_poles_core"]}
{"id": "C88", "title": "Extension of a surface to a curve", "statement": "The extension of a surface to a curve starts on the end border of the surface, with the same derivatives across the border up to the asked continuity, and ends on the curve; with a natural end its second derivative across is null there. Its parameters go on from those of the surface by the mean, along the border, of the distance to the curve divided by the speed. The extended surface is the surface on its domain, and the extension after it.", "quantifier": "every clamped surface of degree at least 1 along U, every curve, every continuity, natural end or not, every dimension, rational or not", "why_tests_cant": "The extension is made row of poles by row of poles, each by an interpolation of the derivatives of the row; that it holds at all the parameters of the border needs the rows to be on the same knots and the curve to have those of the surface.", "anchors": ["gbs/bsstools.h:extention_to_curve", "gbs/bsstools.h:extended_to_curve", "gbs/bsctools.h:extention_to_point"]}
{"id": "C89", "title": "Extension of a surface by a length at one of its borders", "statement": "The extension of a surface by a length ends on a curve whose ends are at this length of the corners of the border, in the direction of the tangents across it, and which is the closest, among the curves on the knots along the border, to the points at this length of ten evenly spaced points by pole; it is exactly at this length all along when such a curve exists. The extended surface contains the surface: at the same parameters for an extension at an end, at parameters shifted by the length of the interval of the extension for an extension at a start; its derivatives across the junction are those of the surface up to the asked continuity on both sides. This holds at the four borders.", "quantifier": "every clamped surface, every length, border and continuity, natural end or not, every dimension", "why_tests_cant": "An extension at a start, or along V, is made of an extension at the end along U between reversals and exchanges of the parameters; that the surface is found again, with all its derivatives at its knots, after four such changes concerns all the parameters.", "anchors": ["gbs/bsstools.h:extention", "gbs/bsstools.h:extended", "gbs/bsstools.h:SurfaceBound"]}
{"id": "C90", "title": "Moving the poles of a curve to meet constraints", "statement": "Moved to a point, a curve passes through it at the given parameter, keeps its degree and knots, and keeps the poles whose basis functions vanish there; among all the curves on the same knots that pass through the point, none has poles nearer to those of the curve. With fixed ends the first and last poles are kept, whatever the point, and the same holds among the curves with these ends. Moved by differences of values and derivatives at several parameters, the curve has them added, with the least displacement of the poles when there are fewer constraints than poles, and the least squares of the errors when there are more. Moved to constraints on values and derivatives, the curve meets them.", "quantifier": "every clamped curve of degree at least 1, every parameter, number and order of constraints, range of moved poles, every dimension", "why_tests_cant": "The minimality of the displacement is a statement about all the curves on the same knots; a test that only looks at the point does not see poles moved more than needed.", "anchors": ["gbs/bscshaping.h:move_to_constraints_delta", "gbs/bscshaping.h:moved_to_constraints", "gbs/bscshaping.h:moved_to_point", "gbs/bscshaping.h:move_to_point"]}
{"id": "C91", "title": "Moving the poles of a surface to meet constraints", "statement": "Moved to a point, a surface passes through it at the given parameters, keeps its degrees and knots, and keeps the poles whose basis functions vanish there; among all the surfaces on the same knots that pass through the point, none has poles nearer to those of the surface. With fixed borders the poles of the four borders are kept, and with them the four border curves, whatever the constraints. Moved to constraints on values and partial derivatives, the surface meets all of them with the least displacement of the moved poles; without constraints it is unchanged.", "quantifier": "every clamped surface of degrees 1 to 24, every parameter, number and order of constraints, every dimension", "why_tests_cant": "The minimality is about all the surfaces on the same knots, and the kept borders about all their points; a test of the constraints does not see them.", "anchors": ["gbs/bssshaping.h:move_to_constraints_delta", "gbs/bssshaping.h:moved_to_constraints", "gbs/bssshaping.h:moved_to_point", "gbs/bssshaping.h:move_to_point"]}
{"id": "C92", "title": "Meshes by transfinite interpolation contain the curves of the network", "statement": "The mesh of a network of two families of curves that cross has one line of nodes for each curve: on it the nodes are points of the curve, at parameters that go from the first crossing to the last without going back and have every crossing among them, each at the index given by the numbers of nodes of the segments before it. This holds whatever the orders of derivation kept along the curves, with or without control of the slopes, and for crossings at parameters common to a family or given for each curve. The number of nodes of the mesh is the product of those of the two directions. Each segment between crossings gets one node more than its mean length over the step, rounded, and every network gets a mesh.", "quantifier": "every network of at least two curves in each direction, any numbers of crossings and nodes, all orders of derivation up to those of the evaluation, every dimension", "why_tests_cant": "The nodes of a line come from the sum of two interpolations minus the interpolation of the crossings, with blends solved from linear systems; that the sum collapses to the curve holds at all the nodes or needs all the systems to be right.", "anchors": ["gbs-mesh/tfi.h:tfi_mesh_2d", "gbs-mesh/tfi.h:msh_curves_lattice", "gbs-mesh/tfi.h:msh_curves_set", "gbs-mesh/tfi.h:msh_curves_set_sizes", "gbs-mesh/tfi.h:build_tfi_blend_function_with_derivatives", "gbs/bscanalysis.h:uniform_distrib_params"]}
{"id": "C93", "title": "Discretization by deviation", "statement": "The parameters of the discretization by deviation are strictly increasing, from the start of the curve to its end, and have among them the first evenly spaced ones and the knots of the curve; between two neighbours farther apart than the knot tolerance the point of the curve at the middle parameter is seen from the first one at an angle with the chord whose sine is at most the deviation; no parameter is added at the middle of two that do not deviate; there are at most the maximum number of points. The refinement always ends. The points are those of the curve at these parameters. The same holds along the iso-curves of a surface; the grid of a surface has its node i along U and j along V at the place j * nu + i.", "quantifier": "every curve and surface, every deviation, number of first points and maximum number of points, every dimension", "why_tests_cant": "The refinement is recursive and stops on a criterion evaluated at points that depend on the former ones; that it ends for every curve, and that all the neighbours meet the criterion, is a statement about all the depths.", "anchors": ["gbs/bscanalysis.h:refine_params_recursive", "gbs/bscanalysis.h:deviation_based_params", "gbs/bscanalysis.h:make_points", "gbs/bscanalysis.h:discretize_with_params", "gbs/bssanalysis.h:discretize", "gbs/bssanalysis.h:refine_params_u_recursive", "gbs/bssanalysis.h:refine_params_v_recursive", "gbs/bssanalysis.h:deviation_based_u_params", "gbs/bssanalysis.h:deviation_based_v_params"]}
{"id": "C94", "title": "Elliptic smoothing of structured meshes", "statement": "The smoothing makes a sequence of iterations; each of them places every node strictly inside the block at the only solution of the discrete elliptic (Winslow) equation with the metrics and neighbours of the iteration before, and leaves the border of the block and everything outside where they are. It stops at the first iteration that moves no node by more than the tolerance, or at the number of iterations asked, and returns the number of iterations and the largest displacement of the last one, which is that of a node. A grid that satisfies the equation, such as equal parallelograms, is not moved. Blocks that are not inside the grid are refused and every grid is smoothed. The Python function does the same.", "quantifier": "every structured grid, block, number of iterations and tolerance", "why_tests_cant": "The sweep reads one array and writes another, that are exchanged after each iteration; the border is right only if both arrays keep it at all iterations, and the number of iterations depends on the displacements.", "anchors": ["gbs-mesh/smoothing.h:elliptic_structured_smoothing", "python/gbsbindmesh.cpp:elliptic_structured_smoothing"]}
{"id": "C95", "title": "Wires are connected chains of edges", "statement": "An edge is added to a wire exactly when the wire is not closed and the edge is joined to one of its two ends, by a shared vertex or by points nearer than the tolerance; it comes at that end, the other edges and the points of all the vertices do not change, and each edge still starts at the vertex where the one before ends. The wire becomes closed exactly when the edge is joined to both ends. An edge that is refused changes nothing. The vertices of all the edges stay at their tolerance from their curves, and their parameters go forwards inside the bounds of the curves. A wire of one edge is closed exactly when its vertices are one, or near each other and the curve. A new edge joins its two points or vertices in order. The sides of a polygon, added in order, make a closed wire with all of them in order. The tessellation of an edge goes along the part of its curve between its vertices, from one to the other.", "quantifier": "every wire and edge, sequence of additions, tolerances and sharing of vertices and edges between wires", "why_tests_cant": "The result depends on which vertices are shared and on the order of the tests; the connection of the chain is an invariant over all sequences of additions, with objects shared between several wires.", "anchors": ["inc/topology/wire.h:addEdge", "inc/topology/wire.h:isClosed", "inc/topology/wire.h:fuseVertex2", "inc/topology/edge.h:setVertex1", "inc/topology/edge.h:setVertex2", "inc/topology/edge.h:tessellate"]}
{"id": "C96", "title": "Connections of two curves have the announced order of contact", "statement": "The connection of two curves goes from the end of the first one to the start of the second one, and at these two ends has the same point and the same derivatives as the curves up to the announced order: 2 for c2_connect, 3 for c3_connect, n for cn_connect, whatever the degree asked for and the parameter length. With the coefficient e the connection also has in the middle the direction and the length of tangent and second derivative that the coefficient prescribes, or passes through the point it prescribes. When a curve is to be left or reached backwards, the derivatives are those of the reversed curve. Every two curves have a connection.", "quantifier": "every two curves with their facing ends, every order, degree, parameter length and coefficient, every dimension", "why_tests_cant": "The poles come from linear systems whose regularity depends on the degree and on the knots built by averaging; tests measure the contact on two or three pairs of curves.", "anchors": ["gbs/bsctools.h:c2_connect", "gbs/bsctools.h:cn_connect", "gbs/bsctools.h:c3_connect"]}
{"id": "C97", "title": "Constrained triangulations cover the inside of the polygon", "statement": "The triangulation of a polygon with holes succeeds and returns triangles of the Delaunay triangulation of its points which cover exactly the inside of the polygon: a point that is not on a side is in one of the returned triangles if and only if the rings turn once around it. So no returned triangle is in a hole or in a notch of the outer ring, and none is missing.", "quantifier": "every outer ring and every list of holes, with any number of points, every size of the encompassing rectangle and every order of removal of its corners", "why_tests_cant": "Whether a triangle is kept depends on a flood fill through links of half-edges that later steps cut; tests count triangles or compare areas for a few polygons, most of them convex.", "anchors": ["inc/topology/tessellations.h:delaunay2DConstrained", "inc/topology/edgeRecovery.h:recoverEdge", "inc/topology/halfEdgeMeshGetters.h:findHalfEdge"]}
{"id": "C98", "title": "Base meshes of surfaces cover the rectangle of the parameters", "statement": "The points of the border that mesh a surface are on the four sides of the rectangle of its parameters, with its four corners and the regular samples of the sides among them. The base mesh succeeds, is a Delaunay triangulation whose vertices are exactly these points, and its triangles cover exactly the rectangle: each point of it is in a triangle, and no triangle goes out of it.", "quantifier": "every surface and bounds, every deviation and number of first points, every size of the encompassing rectangle, every list of points on the border of a rectangle", "why_tests_cant": "The points are all on four lines, so that most circles touch other points and most insertions fall on sides of triangles; the four corners of the encompassing rectangle are removed afterwards and could remove triangles of the rectangle with them.", "anchors": ["inc/topology/tessellations.h:meshSurfaceBoundary", "inc/topology/tessellations.h:delaunay2DBoyerWatsonSurfaceBase"]}
{"id": "C99", "title": "Refinements of meshes of surfaces keep the region and the Delaunay condition", "statement": "Whatever the criterion, the refinement of a Delaunay triangulation returns a Delaunay triangulation of exactly the same region. It keeps all the vertices and adds at most the number of points allowed; each new vertex is the point that the criterion proposes for a triangle of greatest criterion at that time, and a proposed point which is not inserted is not strictly inside the region. A point is proposed for a triangle that does not meet the criterion. When less points than allowed were proposed, all the triangles meet the criterion.", "quantifier": "every Delaunay triangulation, criterion, threshold and number of points; every surface and bounds", "why_tests_cant": "The criterion decides where the points are, on sides, on vertices or outside; the qualities are kept in a map that must follow the faces deleted and created by each insertion.", "anchors": ["inc/topology/tessellations.h:delaunay2DBoyerWatsonSurfaceMeshRefine", "inc/topology/tessellations.h:delaunay2DBoyerWatsonSurfaceMesh", "inc/topology/halfEdgeMeshQuality.h:MaxEdgeSize"]}
{"id": "C100", "title": "Cutting a mesh by a boundary leaves and returns the right parts", "statement": "takeInternalFaces and takeExternalFaces split the list of faces in two, in the same order; what is left is correctly linked, by the links there were between the faces left. A point of the mesh that is not on the boundary is in a face taken by takeInternalFaces if and only if the boundary turns an odd number of times around it, and in a face taken by takeExternalFaces if and only if it does not. After adding an inner boundary to a Delaunay triangulation the triangles left cover exactly the part of the region outside the boundary, after adding an outer one the part inside, and the circles of the triangles are still empty.", "quantifier": "every mesh and boundary, of any number of faces and sides; every Delaunay triangulation and every ring of points", "why_tests_cant": "Each face is judged by its centroid alone, so that the result is right only when no side crosses a face, which depends on the Delaunay condition; the search starts again after each face while the links change.", "anchors": ["inc/topology/halfEdgeMeshEditors.h:takeExternalFaces", "inc/topology/halfEdgeMeshEditors.h:takeInternalFaces", "inc/topology/halfEdgeMeshEditors.h:eraseFace", "inc/topology/halfEdgeMeshGeomTests.h:is_centroid_inside_boundary", "inc/topology/tessellations.h:delaunay2DBoyerWatsonAddInnerBound", "inc/topology/tessellations.h:delaunay2DBoyerWatsonAddOuterBound"]}
{"id": "C101", "title": "Curves and surfaces are read from a JSON document as they were written", "statement": "For every B-Spline curve or surface, rational or not, made by the constructors, make_json gives a document from which make_curve, make_bscurve, make_surface and make_bssurface make a curve or surface of the same degrees and with the same poles, whose knots are the same up to the knot tolerance, and exactly the same object when knots that differ do so by more than the tolerance. So it is for curves on surfaces of any nesting and for surfaces of revolution. A curve is not read in another dimension than its own, and every curve that is written can be read.", "quantifier": "every curve and surface, in every dimension, of any degree and number of poles; every nesting of curves on surfaces", "why_tests_cant": "The written form stores distinct knots and multiplicities computed with a tolerance, projected poles and weights, and truncated degrees; the overload that writes an object depends on its static type and on whether the template arguments are given.", "anchors": ["gbs-io/tojson.h:make_json", "gbs-io/fromjson.h:make_curve", "gbs-io/fromjson.h:make_surface", "gbs-io/fromjson.h:make_bscurve", "gbs-io/fromjson.h:bscurve_direct", "gbs-io/fromjson.h:make_bssurface", "gbs-io/fromjson.h:bssurface_direct", "gbs-io/fromjson.h:make_array", "gbs-io/fromjson.h:make_point_vec", "gbs-io/fromjson.h:make_ax2", "gbs/knotsfunctions.ixx:knots_and_mults"]}
{"id": "C102", "title": "Refinement with smoothing moves vertices to the middle of their neighbours and restores the Delaunay condition", "statement": "getNeighboringVertices ends for every vertex of a mesh and returns the vertices joined to it by an edge. laplacian_smoothing moves the vertex to the mean of its neighbours. delaunay2DBoyerWatsonMeshRefine of a Delaunay triangulation returns a Delaunay triangulation of the same region, with the vertices it had and at most the number of points asked for, each proposed by the criterion; it stops when the worst triangle meets the criterion.", "quantifier": "every mesh, every vertex, every Delaunay triangulation, every criterion and every order of the half-edges in memory", "why_tests_cant": "The walks around a vertex depend on the whole fan of faces and on its openings; the half-edges are visited in the order of their addresses, so a run of a test shows one order only.", "anchors": ["inc/topology/halfEdgeMeshGetters.h:getNeighboringVertices", "inc/topology/halfEdgeMeshGetters.h:getEdgesMap", "inc/topology/halfEdgeMeshSmoothing.h:laplacian_smoothing", "inc/topology/halfEdgeMeshGeomTests.h:is_locally_delaunay", "inc/topology/tessellations.h:delaunay2DBoyerWatsonMeshRefine"]}
{"id": "C103", "title": "Nearest points of curves, surfaces and points are in the bounds and no farther than the samples", "statement": "The searches of the nearest points of a curve and a point, a surface and a point, two curves, and a surface and a curve return parameters within the bounds and the distance of the points there. With first values, these are no farther than the points at the first values; first values out of the bounds throw. With numbers of samples, they are no farther than any sample of the regular grid. The crossing of two lines is the common point, and the only one. The deviation of a curve from points is the largest of their distances to it, with the place and the mean. The gradients given to the minimisation are the derivatives of what is minimised. max_coordinate and min_coordinate look for the largest and the least coordinate, and max_curvature_pos for the largest curvature.", "quantifier": "every curve, surface and point in every dimension, all bounds, first values, numbers of samples and tolerances, and every minimisation that stays in the box and does not go up", "why_tests_cant": "Tests compare with a known nearest point of a few curves, where the distance is null or 1 and is its own square; the gradients matter only for some algorithms of the minimisation.", "anchors": ["gbs/extrema.h:extrema_curve_point", "gbs/extrema.h:extrema_surf_pnt", "gbs/extrema.h:extrema_curve_curve", "gbs/extrema.h:extrema_surf_curve", "gbs/extrema.h:max_coordinate", "gbs/extrema.h:min_coordinate", "gbs/solvers.h:solve_D_nlop", "gbs/bscanalysis.h:dev_from_points", "gbs/bscanalysis.h:max_curvature_pos"]}
{"id": "C104", "title": "Curvilinear abscissae give the parameters of the lengths, and spread points along curves", "statement": "length is the integral of the speed, and its derivatives of order 1 and 2 with respect to the end are the derivatives of this integral; other orders throw. abs_curv returns a function from 0 to the length which gives, at the abscissa of each regular sample of the parameter, this sample, and which is increasing between the bounds of the parameter. The adaptive discretization cuts the intervals whose lengths do not add up and returns sorted parameters with their abscissae; curve_length_function gives the abscissa of each. uniform_distrib_params returns sorted parameters from one bound to the other, which are the parameters of evenly spaced abscissae, exactly so for a curve of constant speed; discretize returns the points there. Interpolations of degree p of points of a polynomial of degree at most p are this polynomial.", "quantifier": "every curve and length, all bounds, degrees up to 24, any numbers of samples and points, every polynomial", "why_tests_cant": "Tests use lines and circles, whose speed is constant or almost; the law is interpolated between samples, so it is exact there and anything in between, and the insertion that invalidates an iterator never occurs on them.", "anchors": ["gbs/bscanalysis.h:length", "gbs/bscanalysis.h:abs_curv", "gbs/bscanalysis.h:abs_curv_adaptive_discretzation", "gbs/bscanalysis.h:abs_curv_adaptive", "gbs/bscanalysis.h:curve_length_function", "gbs/bscanalysis.h:uniform_distrib_params", "gbs/bscanalysis.h:discretize", "gbs/bscinterp.h:interpolate"]}
{"id": "C105", "title": "The area of meshes is the sum of their triangles, and the criteria of refinement give the worst of a face", "statement": "getTriangle2dMeshArea and getTriangle2dMeshAreaPar return the sum of the areas of the triangles in whatever order they are combined, which an insertion keeps. DistanceMeshSurface2, DistanceMeshSurface3, DeviationMeshSurface2 and MaxEdgeSizeSurface return the greatest of what they measure on the shared sides of a face, with the middle of a side that reaches it, and 0 only when nothing is wrong; in a Delaunay triangulation this point gets inserted. DeviationMeshSurface is null for the triangles of a plane. TriangleShape and TriangleShapeEdgeSplit return the ratio of the longest side to the shortest, 1 for equilateral triangles only, with the centroid or the middle of the longest shared side; TriangleShape2 is null for equilateral triangles.", "quantifier": "every mesh, every order of reduction, every triangle, surface, tolerance and limit of length", "why_tests_cant": "Parallel reductions combine numbers and faces in an order that differs from run to run; the criteria look right as long as the refinement adds points, which it does with any numbers.", "anchors": ["inc/topology/halfEdgeMeshQuality.h:getTriangle2dMeshArea", "inc/topology/halfEdgeMeshQuality.h:getTriangle2dMeshAreaPar", "inc/topology/halfEdgeMeshQuality.h:sum_area", "inc/topology/halfEdgeMeshQuality.h:DistanceMeshSurface2", "inc/topology/halfEdgeMeshQuality.h:DistanceMeshSurface3", "inc/topology/halfEdgeMeshQuality.h:DeviationMeshSurface", "inc/topology/halfEdgeMeshQuality.h:DeviationMeshSurface2", "inc/topology/halfEdgeMeshQuality.h:MaxEdgeSizeSurface", "inc/topology/halfEdgeMeshQuality.h:TriangleShape", "inc/topology/halfEdgeMeshQuality.h:TriangleShapeEdgeSplit", "inc/topology/halfEdgeMeshQuality.h:TriangleShape2"]}
{"id": "C106", "title": "Approximations of curves have their ends, their parameters, and are polynomials when they are", "statement": "approx of a curve, to a tolerance or with a number of poles, succeeds for every curve that can be evaluated when there are more samples than poles: as many evenly spaced samples as poles determine the least squares on the knots it starts with. The result has the degree asked for, the bounds of the parameters and the ends of the curve, and is no farther from the samples than any curve on the first knots. A polynomial curve of degree at most that asked for, and a B-spline on these knots, are reproduced exactly, without further poles. With given knots it is the least squares of the samples among the curves with the ends of the curve. Between two parameters it is the approximation of this part of the curve; through a map of the space, of the image of the curve. With a mode of parametrization the ends are those of the curve. to_bs_curve returns a B-spline as it is and otherwise an approximation with the same bounds and ends.", "quantifier": "every curve in every dimension, all bounds, deviations, tolerances, degrees up to 24, numbers of poles and samples", "why_tests_cant": "A test shows the residual of some curves; whether the normal equations are regular depends on the places of all samples relative to all knots, and overloads differ by the order of their numbers only.", "anchors": ["gbs/bscapprox.h:sample_by_deviation", "gbs/bscapprox.h:refine_from_points", "gbs/bscapprox.h:approx", "gbs/bsctools.h:to_bs_curve", "gbs/bscanalysis.h:make_points", "gbs/bscanalysis.h:discretize"]}
{"id": "C107", "title": "Points on an edge of a mesh have the number, the ends and the steps asked for", "statement": "A mesh edge has the length of its curve. With a number n of points set, compute_pnts gives max(2,n) points, from the start of the curve to its end, the one of index i at the part of the length that the law gives for i/(n-1). Without any other law the points are evenly spaced along the curve. update_law(h1,h2) with at least four points puts the second point at the abscissa h1 and the last but one at h2 from the end; update_law(h1,h2,a1,a2) with at least six points makes the second steps a1 h1 and a2 h2. The steps of evenly spaced points give evenly spaced points. Points are computed as soon as the curve has a point at each abscissa of the law.", "quantifier": "every curve with additive positive lengths, in every dimension, all numbers of points, steps and ratios", "why_tests_cant": "A test looks at one curve with mild steps; whether the quadratic law stays between the ends of the curve depends on the ratio of the steps to the spacing.", "anchors": ["gbs-mesh/mshedge.h:msh_edge", "gbs-mesh/mshedge.h:set_n_points", "gbs-mesh/mshedge.h:update_law", "gbs-mesh/mshedge.h:compute_pnts"]}
{"id": "C108", "title": "Offsets of surfaces are at the distance asked for along the normal, and their approximation is the nearest surface on the same knots", "statement": "offset_points gives one point for each pair of parameters, the first direction running first: the point of the surface moved along the normal, on the side from which the first tangent turns to the second, by the value of the function; it is the only point with these conditions. Where the tangents are parallel the program divides by zero, nowhere else. offset_approx with samples so close that each span has degree + 1 of them always succeeds and returns the surface with the knots, degrees and bounds of the base whose poles are the only ones with the least sum of squares of distances to the offset points. When a surface on these knots passes through the offset points the result is this surface; for a surface with a constant normal each pole moves along it by the pole of the function.", "quantifier": "every polynomial surface with clamped knots of degrees up to 24, every function, all numbers of samples", "why_tests_cant": "Tests offset one blade surface and look at it; whether the normal equations are regular depends on the places of all samples relative to all knots.", "anchors": ["gbs/offsets.h:offset_points", "gbs/offsets.h:offset_approx"]}
{"id": "C109", "title": "Tangents from three points are those of the parabola through them, and the interpolation with computed derivatives reproduces what it can", "statement": "build_3pt_tg_vec gives at each point the derivative of the parabola through it and its two neighbours, at their parameters; at the ends the derivative of the parabola through the three nearest points. build_3pt_tg_dir refuses fewer than three points and gives unit vectors along these tangents. Interpolation of points and derivatives of a polynomial of degree at most 2 nc - 1 is this polynomial. With computed derivatives the curve has the degree 2 nc + 1, meets all the given values and has the computed derivative of order nc of the parabolas at the inner points; polynomials of degree below nc are reproduced. A degree that is not below the number of points is refused; smaller degrees give a curve through the points at parameters with steps proportional to the lengths of the mode.", "quantifier": "all numbers of points in any dimension, all increasing parameters, all numbers of values per point with degrees up to 24, all modes", "why_tests_cant": "The test of the tangents checks that the curve passes through its points with the tangents that were computed, so that it passes for any tangents; the flag add_computed has no test.", "anchors": ["gbs/bscinterp.h:build_3pt_tg_vec", "gbs/bscinterp.h:build_3pt_tg_dir", "gbs/bscinterp.h:interpolate", "gbs/bscinterp.h:get_constrain", "gbs/vecop.ixx:blend", "gbs/vecop.ixx:delta", "gbs/vecop.ixx:adim"]}
{"id": "C110", "title": "The centre of the rolling ball is on the normals of both curves, at the same distance of both", "statement": "compute_rolling_ball(crv1,crv2,u1) returns a parameter of the second curve between its bounds and the centre of a circle tangent to both curves, at the points of parameters u1 and u2. Exactly: the centre is the meeting of the two normals, and the circle through the first foot misses the second by no more than for the nearest point found; if it misses by nothing it is tangent to both curves. It says that the curves are parallel exactly when the cosine of the angle of the tangents, at the nearest point found, is above 0.999 up to its sign. It answers whenever u1 is between the bounds of the second curve and no tangent of the second curve is parallel to that of the first.", "quantifier": "all pairs of curves of the plane with values and derivatives, all parameters, all minimisations that stay between the bounds and are not worse than their start", "why_tests_cant": "No test of the sources calls the function, and the cases without ball cannot be seen from its result.", "anchors": ["gbs/bscanalysis.h:compute_rolling_ball", "gbs/bscanalysis.h:normal_line", "gbs/bscanalysis.h:normal_direction", "gbs/solvers.h:solve_N_nlop", "gbs/extrema.h:extrema_curve_curve", "gbs/curveline.h:Line"]}
{"id": "C111", "title": "Derivatives along the lines of a surface, tangent and normal lines of a curve", "statement": "d_dmu and d_dmv of a surface are the unit tangents of its lines at constant v and constant u, and d_dmu2 and d_dmv2 the derivatives of these tangents with respect to the length of the lines; where a line stops they divide by zero. The lists of them hold at each place the result for the parameters of this place. The default derivatives(u,v,nu,nv) hold the derivative of orders (a,b) at the place a (nv+1) + b. The tangent line of a curve is its point and the unit vector along its derivative. The normal line of a curve of space is its point and a unit vector normal to the tangent, which is the second derivative with respect to the length divided by the opposite of the curvature.", "quantifier": "all surfaces and curves with derivatives, in all dimensions (three for the normal), all parameters and lists of parameters", "why_tests_cant": "The tests compare with closed forms at a few parameters of given surfaces; no test calls normal_direction, so its sense is never checked.", "anchors": ["gbs/bssurf.h:d_dmu", "gbs/bssurf.h:d_dmv", "gbs/bssurf.h:d_dmu2", "gbs/bssurf.h:d_dmv2", "gbs/bssurf.h:d_dmus", "gbs/bssurf.h:derivatives", "gbs/bscanalysis.h:tangential_line", "gbs/bscanalysis.h:normal_direction", "gbs/bscanalysis.h:normal_line"]}
{"id": "C112", "title": "The crossings of a lattice of curves are parameters of points that coincide, and the lines of a surface carry its parameters", "statement": "lattice_intersections returns one parameter on each curve for each crossing, between the bounds, with the points of the two curves not farther than the tolerance, or throws invalid_argument when two curves do not meet within the tolerance. Exactly: the square of the distance is not larger than the tolerance and no two samples are nearer; it throws only if all samples of two curves are farther than the root of the tolerance. check_curve_lattice is true exactly when all the distances are within the tolerance. project_points_on_surface replaces each point by a point of the surface at most as far as any sample of the grid. The lines that tfi_mesh_2d takes from a surface have at each ksi (or eth) the point of the surface of that parameter, when the first parameter is 0.", "quantifier": "all lists of curves with values between ordered bounds, all tolerances, all surfaces, all lists of points and parameters, all minimisations that stay between the bounds and are not worse than their start", "why_tests_cant": "The tests use curves that meet exactly and a surface whose first parameters are 0, where the square and the shift cannot be seen.", "anchors": ["gbs-mesh/tfi.h:lattice_intersections", "gbs-mesh/tfi.h:check_curve_lattice", "gbs-mesh/tfi.h:project_points_on_surface", "gbs-mesh/tfi.h:tfi_mesh_2d", "gbs/bscbuild.h:build_segment", "gbs/curveonsurface.h:CurveOnSurface"]}
{"id": "C113", "title": "The points of a text file are the numbers of its lines, in order", "statement": "bscurve_approx_from_points reads one point of each line after the skipped ones: the words of the line, found by split whatever the separators and white space around them, are its coordinates in order, and the approximation gets exactly these points. A file that cannot be opened, a line with another number of words than the dimension, and a word that is not a number are refused with runtime_error; nothing else happens. This holds for lines that have a separator, between all the words.", "quantifier": "all lines, all separators, all dimensions, all readers of numbers, all numbers of skipped lines", "why_tests_cant": "The tests read three files of two columns with single spaces.", "anchors": ["gbs-io/fromtext.h:split", "gbs-io/fromtext.h:bscurve_approx_from_points"]}
{"id": "C114", "title": "The poles of several columns computed together are those of each column", "statement": "build_poles for several columns of constraints returns the poles of the columns one after the other: it succeeds exactly when build_poles succeeds on each column and its result is the concatenation, so each block gives at each parameter the point and derivatives asked for in its column. Only as many points as the first column has are read in each column; a shorter column gives no result.", "quantifier": "all numbers of columns and of constraints, all admissible knots and parameters, all degrees up to 24 for the interpolation, all data", "why_tests_cant": "The comment of the source claims the equivalence; no test of the sources calls this overload.", "anchors": ["gbs/bscinterp.h:build_poles", "gbs/bscinterp.h:collocation_solver"]}
{"id": "C115", "title": "The least-squares loft on a spine passes through its sections when their feet interlace the uniform knots, and is the best fit otherwise", "statement": "loft_approx without knots returns a surface whose curves at the stations (the feet of the sections on the spine, divided by their extent) are the sections, whenever each inner station is strictly inside the support of its basis function and the samples determine the poles along the sections; for at most v_degree_max + 1 sections the first condition always holds. loft_approx on given knots, or for a number of poles, returns the only surface on these knots and on the uniform knots of the stations with the least sum of squares of distances to the points of the sections at the samples, whenever samples and stations determine the poles. When they do not, no result is determined by the points, whatever the solver. Less than two sections are refused.", "quantifier": "all lists of at least two clamped sections, all degrees up to 12 along and 24 across, all numbers of poles and samples, all feet in order, all solvers", "why_tests_cant": "Tests loft two lists of three sections, the case where stations are always admissible, and look at the distance of sample points to the surface; the domain across and lists of more sections are not looked at.", "anchors": ["gbs/bssbuild.h:loft_approx", "gbs/bssapprox.h:approx"]}
{"id": "C116", "title": "The triangulation by trial of all triangles makes Delaunay triangles that do not cross, and all of them when no four vertices are cocircular", "statement": "base_delaunay2d_mesh, for any list of vertices, returns faces that are rings of three half-edges on counter-clockwise triangles of these vertices with no vertex strictly inside their circle; no two have the same vertices, and no side of one crosses a side of another by more than the tolerance. If no four of the vertices are on one circle, each triangle of three of them that is counter-clockwise and has an empty circle is the triangle of a face.", "quantifier": "all lists of vertices, of any length, with or without repetitions, all coordinates and all positive tolerances", "why_tests_cant": "The function is not called by the library nor by its tests.", "anchors": ["inc/topology/tessellations.h:base_delaunay2d_mesh", "inc/topology/halfEdgeMeshGeomTests.h:areFacesEdgesIntersect"]}
{"id": "C117", "title": "The banded matrix of a grid has all the products of basis functions, and the full system and the two systems in one variable have the same poles", "statement": "fill_poles_matrix, for knots of any degrees up to 12 and parameters in any order, writes inside a matrix with one row for each point of the grid and one column for each pole; each row applied to any poles gives the point of their surface, and each entry is the product of the two basis functions computed by recursion. The poles that build_poles gets from a least-squares factorization of this matrix are the poles that approx gets from its two small systems, the only best fit; with as many parameters as poles in each direction, the poles from a factorization of the whole matrix are those of the separable build_poles, and their surface passes through the points.", "quantifier": "all knots, degrees up to 12, all parameters, all grids of points, all solvers", "why_tests_cant": "Tests compare one matrix with 24 rows, one interpolation of 12 points and one fit of 154 points.", "anchors": ["gbs/bssinterp.h:fill_poles_matrix", "gbs/bssinterp.h:build_poles", "gbs/bssapprox.h:approx"]}
{"id": "C118", "title": "The points and cells made for display are those of the mesh", "statement": "make_polydata_from_faces, on faces with any numbers of vertices, makes one point for each vertex of the faces and one cell for each face, which has the numbers of the points of its vertices in the order of the face, whatever the addresses of the vertices; getVerticesVectorFromFaces returns each vertex once. make_polydata_from_edges_loop makes the polyline through the vertices of the half-edges, from the start of the first one to the end of the last one.", "quantifier": "all meshes and lists of faces, all lists of half-edges, all surfaces, all orders of the addresses", "why_tests_cant": "Tests only display the actors, for closed boundaries.", "anchors": ["inc/topology/halfEdgeMeshRender.h:make_polydata_from_faces", "inc/topology/halfEdgeMeshRender.h:make_polydata_from_edges_loop", "inc/topology/halfEdgeMeshGetters.h:getVerticesMapFromFaces", "inc/topology/halfEdgeMeshGetters.h:getVerticesVectorFromFaces"]}
{"id": "C119", "title": "The curves and surfaces exported to IGES are those of the program", "statement": "add_geom gives to the IGES entities 126, 128 and 120 arrays of the sizes that they read; the curve, surface or surface of revolution of the entity is the one of the program, in the same bounds.", "quantifier": "all curves, surfaces and frames, all degrees and knots, all parameters", "why_tests_cant": "Tests write two files and do not read them.", "anchors": ["gbs-io/iges.h:add_geom", "gbs/surfaceofrevolution.h:SurfaceOfRevolution"]}
{"id": "C120", "title": "Adding a dimension keeps the curve or surface and puts it at the value", "statement": "add_dimension gives a curve (surface) whose first coordinates are those of the curve, and whose last coordinate is the value.", "quantifier": "all curves and surfaces made by the constructors, rational or not, all values, all parameters and orders", "why_tests_cant": "Tests add a dimension to curves without weights, to make sections, and do not check the result.", "anchors": ["gbs/bsctools.h:add_dimension", "gbs/bsstools.h:add_dimension", "gbs/transformpoints.h:add_dimension"]}
{"id": "C121", "title": "The faces next to a face are those that share an edge with it", "statement": "getNeighboringFaces returns the faces that share an edge with the face, once for each edge shared, and the relation is symmetric; getCommonEdges returns the two half-edges of such an edge, opposite to each other, or nulls; getNextFace and getPreviousFace turn around the end of a half-edge in opposite directions.", "quantifier": "all valid meshes of triangles, all their faces and half-edges", "why_tests_cant": "Tests check the neighbours in one small mesh and the common edges of two triangles; they do not exchange the faces, and do not turn around a vertex.", "anchors": ["topology/halfEdgeMeshGetters.h:getCommonEdges", "topology/halfEdgeMeshGetters.h:getPreviousFace", "topology/halfEdgeMeshGetters.h:getNextFace", "topology/halfEdgeMeshGetters.h:getNeighboringFaces"]}
{"id": "C122", "title": "The deprecated unification of curves keeps the curves and ends with a common knot vector", "statement": "unify_curves_knots and unified_curves leave curves of the same degree, knots and bounds, each the given one up to an affine change of parameter, as unify_knots does for tuples; curves of different degrees are refused by unify_curves_knots.", "quantifier": "all lists of clamped curves, of degrees up to 12 (24 without elevation), all parameters and derivatives", "why_tests_cant": "One test compares the knots of two curves after the unification; it does not evaluate them, and none is trimmed.", "anchors": ["gbs/bsctools.h:unify_curves_knots", "gbs/bsctools.h:unify_curves_degree", "gbs/bsctools.h:unified_curves", "gbs/bscurve.h:insertKnots", "gbs/knotsfunctions.ixx:multiplicity"]}
{"id": "C123", "title": "Lofts of curves of any kind pass through the conversions of their sections", "statement": "loft of pointers to curves converts each section in order, keeps those that are BSCurves, and returns a surface whose line at the parameter of a section is its conversion: the section itself, at affine parameters, if it is a BSCurve, and a line from the start to the end of the section otherwise.", "quantifier": "all lists of at least two sections of any kind, all parameters of the lines, given increasing parameters or those computed", "why_tests_cant": "The tests loft lists of BSCurves and of rational curves; none gives sections as pointers to curves of several kinds, nor trimmed ones.", "anchors": ["gbs/loft/loftCurves.h:loft", "gbs/bsctools.h:to_bs_curve", "gbs/bsctools.h:get_bs_curves_info", "gbs/loft/loftGeneric.h:loft_generic"]}
{"id": "C124", "title": "Curves described in a document by what they interpolate pass through it", "statement": "make_bscurve reads a description of type bscurve_interp_cn or bscurve_interp as a curve that passes through the described points, with the described derivatives, at the described parameters, or at those of the described mode, and refuses descriptions without constraints, with more than two rows or with an unknown mode.", "quantifier": "all documents, orders of the members, lists of points and derivatives of any length, parameters and modes", "why_tests_cant": "tests_oi reads a few descriptions from files and checks one point of one of the curves; no test compares a curve with all that it interpolates, nor gives parameters without SPECIFIED.", "anchors": ["gbs-io/fromjson.h:bscurve_interp_cn", "gbs-io/fromjson.h:bscurve_interp", "gbs-io/fromjson.h:make_constraints_vec", "gbs-io/fromjson.h:make_bscurve"]}
{"id": "C125", "title": "The greatest and the least coordinate of a curve", "statement": "max_coordinate and min_coordinate return the parameter of the greatest and of the least value of a coordinate of a curve, with this value; solve_coordinate returns a parameter where the coordinate has a given value; a coordinate that the points do not have is refused.", "quantifier": "all curves, coordinates, values and starts", "why_tests_cant": "The test of max_coordinate has one curve, with a coordinate that is not negative, and does not look at the value; min_coordinate and solve_coordinate are not tested.", "anchors": ["gbs/extrema.h:max_coordinate", "gbs/extrema.h:min_coordinate", "gbs/extrema.h:solve_coordinate"]}
{"id": "C126", "title": "The perimeter and the incentre of a triangle", "statement": "perimeter returns the sum of the distances of the vertices, at least twice each of them, zero only for three equal points; incenter returns the point at the same signed distance of the three sides, the only one when the triangle is not flat, which is inside; the circle around it touches the three sides between their ends.", "quantifier": "all triangles, flat ones included, over any ordered field with square roots", "why_tests_cant": "Neither function is called by the tests.", "anchors": ["inc/topology/baseGeom.h:perimeter", "inc/topology/baseGeom.h:incenter"]}
{"id": "C127", "title": "Circulation around a face and reversal of a boundary", "statement": "A loop over a face visits each of its half-edges once, in order, and ends; the iterators of the start and of the end of a face are equal only when there is nothing to visit; getTriangleVertices returns the three vertices in the order of the face; reverseBoundary links the half-edges of a closed boundary in the opposite order, the segments being traversed the other way, changes nothing else, and twice changes nothing.", "quantifier": "all meshes, faces with any number of half-edges, closed or not, and boundaries of any length", "why_tests_cant": "The tests circulate on faces with three and four half-edges; the one of the face without half-edge compares the iterators with ==, which a loop does not use.", "anchors": ["inc/topology/halfEdgeMeshData.h:HalfEdgeFaceEdgeIterator", "inc/topology/halfEdgeMeshEditors.h:reverseBoundary", "inc/topology/halfEdgeMeshGetters.h:getTriangleVertices"]}
{"id": "C128", "title": "The offset of a space curve in a direction", "statement": "The value of CurveOffset3D is the point at the distance of the offset of the point of the curve, orthogonally to its tangent and to the direction, on the side of their vector product for a positive offset; the values of orders 1 and 2 are its derivatives; those of higher orders are refused.", "quantifier": "all curves, offsets, directions, parameters and orders", "why_tests_cant": "The test offsets one circle by one constant, and looks at points only.", "anchors": ["gbs/curveoffset.h:CurveOffset3D"]}
{"id": "C129", "title": "Angles of vectors and length of a polyline", "statement": "angle of vectors of the plane is the angle in (-\u03c0, \u03c0] of the rotation from the first direction to the second one; angle of vectors of the space is the one in [0, \u03c0] of the cosine given by the scalar product, whatever their order; length of a list of points is the sum of the distances of the consecutive ones, at least the distance of its ends; radians and degrees are inverse of each other.", "quantifier": "all vectors and lists of points of any size and dimension", "why_tests_cant": "The angles of vectors are not tested, and the length on one list.", "anchors": ["gbs/vecop.ixx:angle", "gbs/vecop.ixx:length", "gbs/math.ixx:radians", "gbs/math.ixx:degrees"]}
{"id": "C130", "title": "Blend functions of one order", "statement": "build_tfi_blend_function returns one function by parameter, 1 at its parameter and 0 at the other ones, with slopes 0 at all of them when the slopes are controlled; between the first and the last parameters the sum of the functions is 1, and without slope control their combination of the values of a polynomial of degree at most 2 (1 for two parameters) is this polynomial.", "quantifier": "all strictly increasing lists of at least two parameters of any size, with and without slope control", "why_tests_cant": "The tests compare the values at the two parameters of two lists of two parameters with slope control.", "anchors": ["gbs-mesh/tfi.h:build_tfi_blend_function"]}
{"id": "C131", "title": "Surfaces on lists of parameters", "statement": "Surface::values(u_lst,v_lst) returns the points or derivatives at the pairs of the same index, in their order, below and above the size from which it is parallel, the same as values of the list of the pairs, and refuses lists of different sizes.", "quantifier": "all surfaces, lists of parameters in the bounds of any size, orders of derivation and schedules", "why_tests_cant": "The schedules of the parallel algorithm cannot be enumerated, and the assert on the sizes is only active in debug builds.", "anchors": ["gbs/bssurf.h:values", "gbs/execution.h:transform_threshold"]}
{"id": "C132", "title": "Insertion into one curve of the knots of another one", "statement": "The deprecated unify_knots(pk1,pk2,degree) of poles and flat knots leaves the first curve the same and gives each of its knots the greater of the multiplicities it has in the two curves.", "quantifier": "all clamped curves of degree at most 24, and sorted knots of the second one in the interval, separated by more than the tolerance", "why_tests_cant": "Only the pairs of multiplicities that are equal below the degree, or greater in the first curve, are wrong; the result of the first still has the right knots.", "anchors": ["gbs/bsctools.h:unify_knots"]}
{"id": "C133", "title": "Deviation of a triangle from a surface", "statement": "surface_triangle_deviation is a number between 0 and 2 that measures the angle between the triangle of three points of a surface and the surface at the centroid of their parameters, and is zero exactly when they are parallel.", "quantifier": "all surfaces of the space, all triples of parameters", "why_tests_cant": "No test calls it; samples of triangles that turn in the same direction as the parameters would not show the dependence on the order of the points.", "anchors": ["inc/topology/baseGeom.h:surface_triangle_deviation"]}
{"id": "C134", "title": "Orientation of a face and crossing of a horizontal half-line", "statement": "is_ccw of a triangular face is positive, negative or zero as its vertices turn counter-clockwise, clockwise or are aligned, whichever half-edge the face refers to; seg_H_strict_end_intersection is true exactly when the segment, without its end, crosses the half-line to the right of the point.", "quantifier": "all meshes, faces and coordinates of an ordered field, all segments, points and positive tolerances", "why_tests_cant": "The tests only ask whether the result is not zero, for counter-clockwise triangles.", "anchors": ["inc/topology/halfEdgeMeshGeomTests.h:is_ccw", "inc/topology/baseIntersection.h:seg_H_strict_end_intersection"]}
