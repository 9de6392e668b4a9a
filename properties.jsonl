{"id": "C01", "title": "Boundary edges are exactly the edges of one triangle", "statement": "For a triangle table whose triangles have three different vertices, get_boundary_edges returns every undirected vertex pair that is contained in exactly one triangle, written (smaller, larger), exactly once, and returns nothing else.", "quantifier": "every triangle table (any number of triangles, any vertex numbering, shared or duplicated triangles)", "why_tests_cant": "A test compares a few meshes; the claim is about every connectivity table, including non-manifold ones and tables with duplicated triangles.", "anchors": ["oceanmesh/edges.py:get_boundary_edges", "oceanmesh/edges.py:get_edges", "oceanmesh/edges.py:unique_row_view"]}
{"id": "C02", "title": "Boundary edges meet every vertex an even number of times", "statement": "If no vertex pair is contained in more than two triangles, then every vertex lies on an even number of the edges returned by get_boundary_edges; in particular a vertex that lies on one boundary edge lies on at least two.", "quantifier": "every triangle table in which each edge belongs to at most two triangles", "why_tests_cant": "A counting argument over arbitrary meshes; no finite set of meshes exhausts it.", "anchors": ["oceanmesh/edges.py:get_boundary_edges", "oceanmesh/clean.py:_external_topology"]}
{"id": "C03", "title": "Winding the boundary gives a closed trail", "statement": "get_winded_boundary_edges terminates and, if the mesh has a boundary edge, returns a sequence of boundary edges without repetition in which consecutive edges continue each other through a common vertex; it starts with an edge containing vFirst if vFirst is on the boundary. When every edge belongs to at most two triangles the trail is closed (it ends at the vertex it started from). When each boundary vertex lies on exactly two boundary edges the result is the complete boundary loop: every boundary edge that can be reached from the first one through boundary edges is present.", "quantifier": "every triangle table with at least one boundary edge and every optional vFirst", "why_tests_cant": "Loop termination and closedness depend on the degree of all vertices; tests only trace a few shapes.", "anchors": ["oceanmesh/edges.py:get_winded_boundary_edges"]}
{"id": "C04", "title": "Polygon edges cover the whole ring", "statement": "get_poly_edges returns, for every NaN-terminated feature of a polygon array, all the segments between its consecutive points, so that the segments form a closed ring.", "quantifier": "every NaN-delimited polygon array, any number of features of any length", "why_tests_cant": "Whether the last segment of a feature is present depends on the closing convention of the input (open, closed, closed twice), which example tests fix implicitly.", "anchors": ["oceanmesh/edges.py:get_poly_edges"]}
{"id": "C05", "title": "fix_mesh returns a well-formed mesh", "statement": "If all indices of the input are valid, then fix_mesh returns a mesh in which all indices are valid, no two vertices coincide after rounding to the snapping lattice, no two triangles have the same vertices, and, with delete_unused=True, every vertex belongs to a triangle.", "quantifier": "every vertex array, every triangle table with valid indices, every tolerance, every internal sorting order of the unique rows", "why_tests_cant": "Ranges over all meshes and over the unspecified (byte-wise) order in which numpy returns unique rows.", "anchors": ["oceanmesh/fix_mesh.py:fix_mesh", "oceanmesh/fix_mesh.py:unique_rows"]}
{"id": "C06", "title": "fix_mesh preserves the geometry", "statement": "Every triangle of the input is represented in the output of fix_mesh by a triangle whose corners coincide (up to snapping) with its corners, and every output triangle represents some input triangle; every output vertex is an input vertex with unchanged coordinates. The number of triangles and vertices never grows.", "quantifier": "every mesh with valid indices, every positive tolerance, both values of delete_unused", "why_tests_cant": "Renumbering bugs show only for particular permutations and unused-vertex patterns; the claim is for all of them.", "anchors": ["oceanmesh/fix_mesh.py:fix_mesh"]}
{"id": "C07", "title": "fix_mesh orients every triangle counter-clockwise", "statement": "All triangles returned by fix_mesh have non-negative signed area, and the absolute area of each is the absolute area of the corners it was given.", "quantifier": "every mesh with valid indices", "why_tests_cant": "Universal over all coordinates and all connectivity.", "anchors": ["oceanmesh/fix_mesh.py:fix_mesh", "oceanmesh/fix_mesh.py:simp_vol"]}
{"id": "C08", "title": "fix_mesh merges only points within the tolerance", "statement": "Two points that fix_mesh merges differ by at most ptol times the extent of the point cloud in each coordinate; points further apart than this in some coordinate are never merged; identical points are always merged.", "quantifier": "every point array and every positive tolerance", "why_tests_cant": "Rounding boundaries occur at arbitrary coordinates; sampling cannot cover them.", "anchors": ["oceanmesh/fix_mesh.py:fix_mesh"]}
{"id": "C09", "title": "fix_mesh returns a usable vertex map", "statement": "The third value returned by fix_mesh maps the index of every input vertex to the index of the output vertex representing it.", "quantifier": "every mesh with valid indices, both values of delete_unused", "why_tests_cant": "Tests ignore or only partly check the map; the claim concerns every vertex of every mesh and both flags.", "anchors": ["oceanmesh/fix_mesh.py:fix_mesh"]}
{"id": "C10", "title": "Signed area behaves like a signed area", "statement": "simp_vol changes sign when two corners are exchanged, is unchanged by cyclic permutation and by translation, scales with the square of a scaling factor and is zero exactly if the corners are collinear.", "quantifier": "every triangle with coordinates in an ordered field", "why_tests_cant": "Algebraic laws for all real coordinates.", "anchors": ["oceanmesh/fix_mesh.py:simp_vol"]}
{"id": "C11", "title": "Triangle quality is a scale-free number with 1 for equilateral triangles", "statement": "simp_qual returns 1.0 for every equilateral triangle, never more than 1.0, and does not change when the mesh is scaled or moved.", "quantifier": "every non-degenerate triangle and every scaling factor", "why_tests_cant": "Scale invariance is a statement about all sizes of triangle; unit tests evaluate unit-size triangles.", "anchors": ["oceanmesh/fix_mesh.py:simp_qual"]}
{"id": "C12", "title": "Face adjacency is exact", "statement": "The face-to-face table lists, for each triangle, the triangle itself and the triangles sharing an edge with it, and nothing else, whatever order the sorting routine gives to equal keys; on meshes where each edge has at most two triangles each neighbour is listed once per shared edge.", "quantifier": "every table of non-degenerate triangles and every result of the (unstable) sort", "why_tests_cant": "The sort is not stable, so the table is only determined up to ties; all outcomes have to be considered.", "anchors": ["oceanmesh/clean.py:_face_to_face", "oceanmesh/clean.py:_arg_sortrows"]}
{"id": "C13", "title": "Vertex-to-face table is exact", "statement": "For every vertex the vertex-to-face table gives exactly the triangles that contain it.", "quantifier": "every triangle table, every vertex, every result of the (unstable) sort", "why_tests_cant": "Pointer offsets are right or wrong depending on which vertex numbers are unused; tests use gap-free numberings.", "anchors": ["oceanmesh/clean.py:_vertex_to_face"]}
{"id": "C14", "title": "The component search finds exactly one connected component", "statement": "Starting from any triangle the search over the mesh terminates and flags exactly the triangles reachable from it through shared edges.", "quantifier": "every triangle table, every random start triangle, every tie-breaking of the sort", "why_tests_cant": "Reachability is a property of unbounded chains of triangles.", "anchors": ["oceanmesh/clean.py:_depth_first_search"]}
{"id": "C15", "title": "delete_exterior_faces does not depend on the random seed", "statement": "If the signed areas are non-negative and the total area is positive, delete_exterior_faces terminates for every threshold in [0,1] and returns, as a set, exactly the triangles whose edge-connected component has more than the given fraction of the total area - the same set for every sequence of random start triangles.", "quantifier": "every mesh with non-negative areas, every threshold, every sequence of random choices", "why_tests_cant": "The random start faces make this a property of all schedules of choices.", "anchors": ["oceanmesh/clean.py:delete_exterior_faces", "oceanmesh/clean.py:_depth_first_search"]}
{"id": "C16", "title": "delete_interior_faces removes one face per over-connected vertex", "statement": "delete_interior_faces keeps the remaining triangles unchanged and in order, deletes only triangles touching a vertex with more than two boundary edges and at least one triangle at each such vertex, and returns the mesh unchanged if there is none.", "quantifier": "every mesh without unused vertices, any quality values", "why_tests_cant": "Which face is deleted depends on quality ties and on the boundary pattern; the guarantee must hold for all.", "anchors": ["oceanmesh/clean.py:delete_interior_faces"]}
{"id": "C17", "title": "make_mesh_boundaries_traversable terminates with a traversable boundary", "statement": "make_mesh_boundaries_traversable terminates for every mesh, never adds triangles and moves corners only by the merging tolerance of fix_mesh (not at all if the vertices are further apart than it), and if no triangle of the result is degenerate and each edge belongs to at most two triangles then every boundary vertex of the result lies on exactly two boundary edges.", "quantifier": "every mesh, every threshold, every random choice inside the exterior check", "why_tests_cant": "Termination of a data-dependent while loop and a global post-condition for all meshes.", "anchors": ["oceanmesh/clean.py:make_mesh_boundaries_traversable"]}
{"id": "C18", "title": "delete_faces_connected_to_one_face reaches a fixed point", "statement": "With the default unlimited max_iter delete_faces_connected_to_one_face terminates on every mesh and in the result no triangle is connected to exactly one other triangle; a mesh with no such triangle is returned unchanged; a non-positive max_iter is rejected.", "quantifier": "every mesh and every iteration limit", "why_tests_cant": "Termination and the fixed point are claims about unbounded iteration.", "anchors": ["oceanmesh/clean.py:delete_faces_connected_to_one_face"]}
{"id": "C19", "title": "delete_boundary_faces touches only bad boundary faces", "statement": "delete_boundary_faces deletes exactly the triangles that touch the boundary and have quality below the limit; all other triangles survive with their corner coordinates (up to the merging tolerance of fix_mesh; exactly if the vertices are further apart).", "quantifier": "every mesh without unused vertices, every quality limit", "why_tests_cant": "All meshes, all limits; index bookkeeping (indices into a subset of indices) has to be right for each.", "anchors": ["oceanmesh/clean.py:delete_boundary_faces", "oceanmesh/clean.py:get_boundary_entities"]}
{"id": "C20", "title": "Laplacian smoothing keeps boundary, connectivity and bounding box", "statement": "laplacian2 returns the same triangles and the same number of vertices, does not move any boundary vertex nor the vertex nearest to a given fixed point, moves every other vertex into the convex hull of its neighbours, and so keeps all vertices inside the bounding box of the input, after any number of iterations.", "quantifier": "every mesh, every iteration limit, tolerance and list of fixed points", "why_tests_cant": "Inductive over iterations; tests run one mesh for a fixed number of iterations.", "anchors": ["oceanmesh/clean.py:laplacian2"]}
{"id": "C21", "title": "mesh_clean returns a valid mesh", "statement": "If mesh_clean returns, its result is a mesh with valid indices, no unused vertices, no duplicate triangles and non-negative areas.", "quantifier": "every input mesh with valid indices, all parameters and all random choices", "why_tests_cant": "Composition of six data-dependent passes; holds or fails per mesh.", "anchors": ["oceanmesh/clean.py:mesh_clean"]}
{"id": "C22", "title": "Ocean boundary sections are sections of deep boundary nodes", "statement": "identify_ocean_boundary_sections returns without error for every mesh with a boundary; both end nodes of every section are boundary nodes at or below the depth threshold, and the start of a section does not come after its end.", "quantifier": "every boundary loop, every depth profile along it and every min_nodes_threshold", "why_tests_cant": "The scan is a state machine over the positions of deep nodes; its behaviour depends on the pattern of gaps, of which there are infinitely many.", "anchors": ["oceanmesh/boundary.py:identify_ocean_boundary_sections"]}
{"id": "C23", "title": "Gradation limiting only lowers sizes and keeps the minimum", "statement": "The gradient limiter returns a field that is nowhere larger than its input, nowhere smaller than the smallest input value, and at every node at least the lower envelope of the input (the smallest value that can be forced on it by limiting along grid paths); the smallest input value is kept where it was.", "quantifier": "every grid size, every field of non-negative sizes, every non-negative gradation and grid spacing, every iteration limit", "why_tests_cant": "All fields and all numbers of sweeps; tests look at one field.", "anchors": ["oceanmesh/cpp/HamiltonJacobi.cpp:c_gradient_limit", "oceanmesh/edgefx.py:enforce_mesh_gradation"]}
{"id": "C24", "title": "After convergence neighbouring sizes respect the gradation", "statement": "When the gradient limiter stops before its iteration limit, the values at any two neighbouring grid nodes (the eight neighbours) differ by at most gradation times their distance plus the tolerance.", "quantifier": "every grid size and every field on which the limiter converges", "why_tests_cant": "Whether a pair of nodes is re-examined depends on the order of updates across the sweeps.", "anchors": ["oceanmesh/cpp/HamiltonJacobi.cpp:c_gradient_limit"]}
{"id": "C25", "title": "A graded field is left alone", "statement": "A field that already respects the gradation is returned unchanged and the limiter stops after one sweep; limiting an already limited (converged) field changes nothing.", "quantifier": "every grid size and every field", "why_tests_cant": "Fixed-point property for all fields.", "anchors": ["oceanmesh/cpp/HamiltonJacobi.cpp:c_gradient_limit"]}
{"id": "C26", "title": "The gradient limiter never reads or writes outside the array", "statement": "For every grid size all array positions used by the limiter lie inside the array, and the 1-based column-major index maps are inverse to each other.", "quantifier": "every number of rows, columns and layers and every node", "why_tests_cant": "Index safety has to hold at all borders and corners of all grid sizes.", "anchors": ["oceanmesh/cpp/HamiltonJacobi.cpp:sub2ind", "oceanmesh/cpp/HamiltonJacobi.cpp:ind2sub", "oceanmesh/cpp/HamiltonJacobi.cpp:c_gradient_limit"]}
{"id": "C27", "title": "The gradient limiter converges", "statement": "For a field of positive values the limiter reaches a state without active nodes after finitely many sweeps, i.e. there is an iteration limit beyond which the result no longer changes.", "quantifier": "every grid size and every positive field", "why_tests_cant": "A termination claim about unbounded iteration.", "anchors": ["oceanmesh/cpp/HamiltonJacobi.cpp:c_gradient_limit"]}
{"id": "C28", "title": "enforce_mesh_gradation validates its input and keeps the grid", "statement": "enforce_mesh_gradation rejects negative gradation and unequal spacings, returns a grid of the same shape, bounding box and spacing, whose values are the limited values at the same nodes, and does not change the grid it was given.", "quantifier": "every grid and gradation", "why_tests_cant": "Flattening and reshaping (column-major) must agree for every shape.", "anchors": ["oceanmesh/edgefx.py:enforce_mesh_gradation"]}
{"id": "C29", "title": "Sizing bounds by elevation are honoured", "statement": "After enforce_mesh_size_bounds_elevation every node whose elevation lies in a band has a size inside the limits of the last band containing its elevation, nodes outside all bands keep their size, and applying the same bounds again changes nothing; invalid bounds are rejected without modifying the grid.", "quantifier": "every grid, elevation field and list of bounds", "why_tests_cant": "Overlapping bands and invalid entries at any position of the list.", "anchors": ["oceanmesh/edgefx.py:enforce_mesh_size_bounds_elevation"]}
{"id": "C30", "title": "Grid nodes lie in the bounding box", "statement": "A grid built from a bounding box and spacings has nodes at x0+i*dx, y0+j*dy, all inside the box, and no further row or column would fit; its coordinate vectors are strictly increasing.", "quantifier": "every valid bounding box and positive spacings", "why_tests_cant": "Rounding down of the extent is only visible for particular ratios.", "anchors": ["oceanmesh/grid.py:Grid", "oceanmesh/grid.py:create_vectors"]}
{"id": "C31", "title": "Evaluating a sizing grid reproduces and bounds its values", "statement": "After build_interpolant, eval at a node gives the value of that node, eval inside the node lattice stays between the smallest and largest value of the surrounding cell, and eval outside gives 999999 unless extrapolation is on.", "quantifier": "every grid and every query point", "why_tests_cant": "Continuum of query points.", "anchors": ["oceanmesh/grid.py:build_interpolant"]}
{"id": "C32", "title": "Building the interpolant is idempotent", "statement": "Calling build_interpolant any number of times leaves the grid values, and hence eval, as after the first call.", "quantifier": "every grid and every number of calls (histories)", "why_tests_cant": "A property of call histories; one-shot tests do not see it.", "anchors": ["oceanmesh/grid.py:build_interpolant"]}
{"id": "C33", "title": "interpolate_to prefers the fine grid where it has data", "statement": "interpolate_to gives at every node of the target grid the value of a nearest source node if the target node lies inside the source lattice, and the old target value otherwise.", "quantifier": "every pair of grids", "why_tests_cant": "All relative positions and spacings.", "anchors": ["oceanmesh/grid.py:interpolate_to"]}
{"id": "C34", "title": "compute_minimum is the pointwise minimum", "statement": "compute_minimum returns on the base grid at every node the smallest of the base value and the values of the other grids available there; the result nowhere exceeds the base grid, does not depend on the order of the other grids, its hmin is the smallest positive value, and it fails if there is none.", "quantifier": "every list of grids with valid crs", "why_tests_cant": "All numbers of grids and all value patterns.", "anchors": ["oceanmesh/grid.py:compute_minimum"]}
{"id": "C35", "title": "Inverse-distance interpolation is a weighted average", "statement": "Every value returned by the inverse-distance interpolator lies between the smallest and largest data value of the neighbours used, equals the data value at (numerically) coincident points, is exact for constant data, and depends only on ratios of distances.", "quantifier": "every data set, every neighbour query result, every exponent and positive weights", "why_tests_cant": "Continuum of distances and values.", "anchors": ["oceanmesh/idw.py:Invdisttree.__call__"]}
{"id": "C36", "title": "Blending keeps fine and coarse values and records the minimum", "statement": "blend_into returns the coarse grid unchanged if the fine grid does not fit in it; otherwise the result equals the nearest fine values inside, the coarse values outside the padding and stays within the range of both grids in the padding zone; its hmin is the smallest value of the blended grid.", "quantifier": "every pair of grids, every padding width and number of neighbours", "why_tests_cant": "All relative positions, paddings and values.", "anchors": ["oceanmesh/grid.py:blend_into"]}
{"id": "C37", "title": "Multiscale sizing is the minimum of all sizing grids", "statement": "The function returned by multiscale_sizing_function gives at every query point the smallest of the available grid sizes (and 999999), so that it never exceeds any of the sizing functions, and evaluating it repeatedly gives the same value; grids not ordered from coarse to fine are rejected.", "quantifier": "every list of sizing grids and query points, every number of evaluations", "why_tests_cant": "All numbers of grids, points and repeated evaluations.", "anchors": ["oceanmesh/edgefx.py:multiscale_sizing_function"]}
{"id": "C38", "title": "Distance-based sizing stays between its limits", "statement": "The distance based sizing functions return values of at least the minimum edge length, at most the maximum edge length if given, equal to the minimum where the distance is zero and growing at most with the given rate with distance.", "quantifier": "every distance field, rate and limits", "why_tests_cant": "All distance fields.", "anchors": ["oceanmesh/edgefx.py:distance_sizing_function", "oceanmesh/edgefx.py:distance_sizing_from_point_function", "oceanmesh/edgefx.py:distance_sizing_from_line_function"]}
{"id": "C39", "title": "Wavelength sizing is monotone and bounded", "statement": "wavelength_sizing_function gives sizes between the minimum and maximum edge length that do not decrease with depth and resolve the wave with the requested number of elements where no limit applies.", "quantifier": "every depth field and parameters", "why_tests_cant": "All depth fields.", "anchors": ["oceanmesh/edgefx.py:wavelength_sizing_function"]}
{"id": "C40", "title": "The earth gradient is exact for plane fields", "statement": "The finite-difference gradient is linear, zero for constant fields and exact for affine fields at interior and border nodes.", "quantifier": "every grid size of at least two nodes per direction and every affine field", "why_tests_cant": "All sizes and coefficients.", "anchors": ["oceanmesh/edgefx.py:_earth_gradient"]}
{"id": "C41", "title": "Low-pass and high-pass parts add up to the field", "statement": "For every field the low-pass and high-pass results of filt2 add up to the field, and the band-stop result is the field minus its band-pass content, so that a wave shorter than the stop band passes unchanged; wrong filter names or wavelength arguments are rejected.", "quantifier": "every field, every smoothing operator that is linear and preserves constants", "why_tests_cant": "All fields and wavelengths.", "anchors": ["oceanmesh/filterfx.py:filt2"]}
{"id": "C42", "title": "Bounding-box containment is a partial order up to equality", "statement": "bbox_contains is reflexive and transitive, and for boxes that are not global it holds exactly when every point of the inner box lies in the outer box.", "quantifier": "every pair and triple of boxes", "why_tests_cant": "Ordering laws for all boxes including the special handling of global boxes.", "anchors": ["oceanmesh/region.py:bbox_contains", "oceanmesh/region.py:is_global_bbox"]}
{"id": "C43", "title": "Stereographic projection round trip", "statement": "to_lat_lon(to_stereo(lon, lat)) returns the same longitude and latitude for every longitude in (-180,180] and latitude strictly between -90 and 90 degrees, and to_stereo(to_lat_lon(u, v)) returns (u, v) for every point of the plane; the intermediate 3D points lie on the sphere of radius R.", "quantifier": "all real coordinates and every positive radius", "why_tests_cant": "A continuum of coordinates.", "anchors": ["oceanmesh/region.py:to_lat_lon", "oceanmesh/region.py:to_stereo", "oceanmesh/region.py:to_3d", "oceanmesh/region.py:stereo_to_3d"]}
{"id": "C44", "title": "Regions always hold a valid bounding box", "statement": "A Region built from a tuple has exactly four numbers with xmin < xmax and ymin < ymax, otherwise construction fails; transforming to another CRS and back with an inverse transformer restores it, and a failing transformation leaves the old box.", "quantifier": "every tuple and coordinate transformer", "why_tests_cant": "All inputs and all transformers.", "anchors": ["oceanmesh/region.py:Region"]}
{"id": "C45", "title": "Signed-distance set operations", "statement": "A point is strictly inside a Union iff it is strictly inside some member, strictly inside an Intersection iff strictly inside all, strictly inside a Difference iff strictly inside the first and strictly outside all others; the bounding box of the result contains all member boxes.", "quantifier": "every list of domains and every point", "why_tests_cant": "All domains and points.", "anchors": ["oceanmesh/signed_distance_function.py:Union", "oceanmesh/signed_distance_function.py:Intersection", "oceanmesh/signed_distance_function.py:Difference", "oceanmesh/signed_distance_function.py:_compute_bbox"]}
{"id": "C46", "title": "Multiscale nests do not overlap", "statement": "The nests returned by multiscale_signed_distance_function are pairwise disjoint, each lies in its own domain, and the union of the domains is the set of points inside one of them; every point of a domain that is not covered by a finer domain is in its nest.", "quantifier": "every list of signed distance functions and every point", "why_tests_cant": "All numbers of nests and points.", "anchors": ["oceanmesh/signed_distance_function.py:multiscale_signed_distance_function"]}
{"id": "C47", "title": "The signed distance function is negative exactly in the water", "statement": "The function built by signed_distance_function is negative exactly at points that are inside both the shoreline polygon and the bounding polygon and not on a shoreline vertex, its absolute value is the distance to the nearest vertex, points with non-finite coordinates are never inside, and inverting it exchanges inside and outside.", "quantifier": "every shoreline, every query point including non-finite ones, both values of invert", "why_tests_cant": "All points including NaN and infinities.", "anchors": ["oceanmesh/signed_distance_function.py:signed_distance_function"]}
{"id": "C48", "title": "Box distance sign", "statement": "The function of create_bbox is negative exactly strictly inside the box, zero exactly on its boundary and positive outside.", "quantifier": "every box and every point", "why_tests_cant": "Continuum of points.", "anchors": ["oceanmesh/signed_distance_function.py:create_bbox"]}
{"id": "C49", "title": "Point-in-polygon result does not depend on edge order or direction", "statement": "The inside and boundary results of the ray-casting kernel and of the compiled kernel do not change when the edges are listed in another order or any edge is reversed.", "quantifier": "every polygon edge list, every permutation and reversal, every point and tolerance", "why_tests_cant": "Factorially many orders; continuum of points.", "anchors": ["oceanmesh/geometry/point_in_polygon.py:_inpoly_raycasting", "oceanmesh/geometry/point_in_polygon_.pyx:inpoly2_fast"]}
{"id": "C50", "title": "Python and compiled point-in-polygon kernels agree", "statement": "With tolerance zero the Python ray-casting kernel and the compiled kernel give the same inside and on-boundary answers for every point and closed polygon.", "quantifier": "every edge list in which each vertex has even degree and every finite point", "why_tests_cant": "Two different implementations have to agree on all inputs.", "anchors": ["oceanmesh/geometry/point_in_polygon.py:_inpoly_raycasting", "oceanmesh/geometry/point_in_polygon_.pyx:inpoly2_fast"]}
{"id": "C51", "title": "Point-in-polygon obeys the even-odd rule", "statement": "For points off the boundary, the answer for two rings together is the exclusive-or of the answers for each ring (so holes are cut out), points outside the bounding box of a closed polygon are outside, boundary points are reported inside, and for a triangle the answer is the geometric one.", "quantifier": "every collection of rings and every point", "why_tests_cant": "All polygons and points.", "anchors": ["oceanmesh/geometry/point_in_polygon.py:inpoly2", "oceanmesh/geometry/point_in_polygon.py:_inpoly_raycasting"]}
{"id": "C52", "title": "Point queries are independent and NaN-safe", "statement": "inpoly2 gives for every query point an answer that depends only on that point and the polygon, never on other points in the batch; points with non-finite coordinates are reported outside and not on the boundary; invalid edge indices are rejected.", "quantifier": "every batch of points, polygon and method", "why_tests_cant": "All batches and positions of NaNs within them.", "anchors": ["oceanmesh/geometry/point_in_polygon.py:inpoly2"]}
{"id": "C53", "title": "Polygon rings are recovered from edges", "statement": "_edges_to_rings terminates on every edge list; if every vertex has exactly two edges it returns closed rings that together visit every vertex once along edges of the list, otherwise it fails; the edges produced by get_poly_edges for a polygon with segments always fail here, so that all Python methods give the ray-casting answer for shorelines.", "quantifier": "every edge list", "why_tests_cant": "All graphs.", "anchors": ["oceanmesh/geometry/point_in_polygon.py:_edges_to_rings", "oceanmesh/geometry/point_in_polygon.py:_inpoly_shapely", "oceanmesh/geometry/point_in_polygon.py:_inpoly_matplotlib"]}
{"id": "C54", "title": "Polygon list and array forms are inverse", "statement": "Splitting a NaN-terminated polygon array into a list of polygons and joining it again gives the same array, and joining then splitting gives the same list.", "quantifier": "every array ending in a NaN row and every list of polygons with one closing NaN row each", "why_tests_cant": "All numbers and lengths of features.", "anchors": ["oceanmesh/geodata.py:_convert_to_array", "oceanmesh/geodata.py:_convert_to_list"]}
{"id": "C55", "title": "Densifying keeps the points and bounds the gaps", "statement": "_densify returns an array without unfilled entries that contains all original points in order, and between consecutive output points of a densified segment each coordinate changes by at most the given spacing; segments outside the box and NaN separators are kept as they are.", "quantifier": "every polygon array, every positive spacing, every inside mask", "why_tests_cant": "All lengths and spacings, off-by-one of the segment counter.", "anchors": ["oceanmesh/geodata.py:_densify"]}
{"id": "C56", "title": "Corner cutting keeps ends and stays in the hull", "statement": "_chaikins_corner_cutting doubles the number of points in each refinement, keeps the first and last point (so closed rings stay closed), and never leaves the bounding box or any half-plane containing the input.", "quantifier": "every coordinate list and number of refinements", "why_tests_cant": "Inductive over refinements.", "anchors": ["oceanmesh/geodata.py:_chaikins_corner_cutting", "oceanmesh/geodata.py:_smooth_shoreline"]}
{"id": "C57", "title": "Simplification outside the box never drops a point inside", "statement": "_nth_simplify returns for each feature only points of that feature, in order, and every point inside the box is kept.", "quantifier": "every polygon array and every inside mask", "why_tests_cant": "Chunks of 50 points at every position.", "anchors": ["oceanmesh/geodata.py:_nth_simplify"]}
{"id": "C58", "title": "Shoreline classification partitions the features", "statement": "_classify_shoreline puts a feature among the islands only if it lies in the current domain and is larger than the minimum area, among the mainland only if it does not and intersects the domain; nothing is put in both and features are kept in order.", "quantifier": "every list of features and every answer of the geometry engine", "why_tests_cant": "All feature lists.", "anchors": ["oceanmesh/geodata.py:_classify_shoreline"]}
{"id": "C59", "title": "Box overlap test", "statement": "Two boxes overlap by _is_overlapping and by _bbox_overlaps_bounds exactly if their interiors have a common point; the test is symmetric.", "quantifier": "every pair of boxes with positive extent", "why_tests_cant": "Continuum of positions.", "anchors": ["oceanmesh/geodata.py:_is_overlapping", "oceanmesh/geodata.py:_bbox_overlaps_bounds"]}
{"id": "C60", "title": "The subdataset overlapping the region is preferred", "statement": "If some subdataset of a NetCDF file overlaps the requested region, the one picked overlaps it; otherwise the largest is picked.", "quantifier": "every list of subdatasets and every region", "why_tests_cant": "All orders and sizes of subdatasets.", "anchors": ["oceanmesh/geodata.py:_pick_netcdf_open_target"]}
{"id": "C61", "title": "Orientation of a path", "statement": "_is_path_ccw tells for every simple closed polygon whether it is counter-clockwise.", "quantifier": "every simple closed polygon with a non-zero area", "why_tests_cant": "All polygon shapes including non-convex and very small ones.", "anchors": ["oceanmesh/geodata.py:_is_path_ccw"]}
{"id": "C62", "title": "remove_dup removes only consecutive duplicates", "statement": "remove_dup returns its input without consecutive duplicate points and with all other points kept.", "quantifier": "every coordinate array", "why_tests_cant": "All coordinates, including points on the diagonal.", "anchors": ["oceanmesh/geodata.py:remove_dup"]}
{"id": "C63", "title": "Polygon area laws", "statement": "_poly_area is non-negative and does not change under translation, reversal of the direction or a cyclic shift of the starting point.", "quantifier": "every coordinate list", "why_tests_cant": "Algebraic laws for all polygons.", "anchors": ["oceanmesh/geodata.py:_poly_area"]}
{"id": "C64", "title": "Writing a fort.14 file and reading it back gives the mesh", "statement": "Reading the file produced by write_to_fort14 gives the number of vertices and elements, the coordinates, the sign-flipped depths and the connectivity that were passed in.", "quantifier": "every mesh with valid indices", "why_tests_cant": "All meshes; off-by-one of the 1-based indices at every row.", "anchors": ["oceanmesh/mesh_generator.py:write_to_fort14"]}
{"id": "C65", "title": "Exporting does not change the mesh", "statement": "Writing a mesh to a file leaves the arrays of the caller unchanged, so that any sequence of exports writes the same mesh each time.", "quantifier": "every mesh and every history of export calls", "why_tests_cant": "A property of call histories.", "anchors": ["oceanmesh/mesh_generator.py:write_to_fort14", "oceanmesh/mesh_generator.py:write_to_t3s"]}
{"id": "C66", "title": "Multiscale validation accepts only consistent inputs", "statement": "If validation of a multiscale setup succeeds then the lists are non-empty and of equal length, at most one domain is stereographic and it is the first one and every other domain fits into its bounding box, no other domain is stereographic, and every sizing grid with a CRS has that of its domain.", "quantifier": "every list of domains and sizing grids with any combination of metadata", "why_tests_cant": "Combinations of metadata over lists of any length.", "anchors": ["oceanmesh/mesh_generator.py:_validate_multiscale_domains"]}
{"id": "C67", "title": "Unknown options are rejected and documented options accepted", "statement": "generate_mesh and generate_multiscale_mesh raise an error for every option name that is not known and accept every documented option.", "quantifier": "every set of keyword options", "why_tests_cant": "All option sets.", "anchors": ["oceanmesh/mesh_generator.py:_parse_kwargs", "oceanmesh/mesh_generator.py:generate_multiscale_mesh"]}
{"id": "C68", "title": "Generated triangles lie in the domain", "statement": "Every triangle kept by generate_mesh has its centroid inside the domain by the tolerance, whatever the triangulation, sizing function and random numbers were; exactly max_iter triangulations are made.", "quantifier": "every domain function, sizing function, triangulation engine, random sequence and number of iterations", "why_tests_cant": "Ranges over executions of the iterative generator.", "anchors": ["oceanmesh/mesh_generator.py:generate_mesh", "oceanmesh/mesh_generator.py:_remove_triangles_outside"]}
{"id": "C69", "title": "Fixed points are kept", "statement": "If the nearest vertices of the fixed points are different, every fixed point is a vertex of the last triangulation with its exact coordinates, for every number of iterations.", "quantifier": "every execution of the generator", "why_tests_cant": "Inductive over iterations and for all triangulation engines.", "anchors": ["oceanmesh/mesh_generator.py:generate_mesh", "oceanmesh/mesh_generator.py:_closest_node"]}
{"id": "C70", "title": "Mesh forces are balanced", "statement": "The bar forces computed in each iteration add up to zero over all vertices and push bar ends apart only (never attract).", "quantifier": "every triangulation, sizing function and vertex positions", "why_tests_cant": "Algebraic identity for all meshes.", "anchors": ["oceanmesh/mesh_generator.py:_compute_forces", "oceanmesh/mesh_generator.py:_get_bars"]}
{"id": "C71", "title": "Initial points lie in the domain", "statement": "The initial points consist of the fixed points followed by lattice points of the bounding box at which the signed distance is below the tolerance; points with the smallest desired size are always kept.", "quantifier": "every domain, sizing function and random sequence", "why_tests_cant": "All random sequences.", "anchors": ["oceanmesh/mesh_generator.py:_generate_initial_points"]}
{"id": "C72", "title": "Projection only moves points outside", "statement": "The projection step moves only points with positive signed distance; for a locally linear distance function the moved points land on the boundary.", "quantifier": "every point set and distance function", "why_tests_cant": "Continuum of points.", "anchors": ["oceanmesh/mesh_generator.py:_project_points_back"]}
{"id": "C73", "title": "A sizing grid yields a usable minimum size", "statement": "If a sizing grid is accepted the minimum size used is finite and positive and at most every positive size of the grid when it has to be recomputed; a grid without positive sizes is rejected.", "quantifier": "every grid of sizes including NaN, infinities, zeros and negative values and every stored hmin", "why_tests_cant": "All patterns of invalid values.", "anchors": ["oceanmesh/mesh_generator.py:_unpack_sizing", "oceanmesh/mesh_generator.py:_sanitize_smoothed_sizing_grid"]}
{"id": "C74", "title": "Unique edges", "statement": "unique_edges returns every undirected edge of the triangles once, with the smaller index first, in strictly increasing lexicographic order, independent of the order and orientation of triangles.", "quantifier": "every triangle table", "why_tests_cant": "All tables and all permutations.", "anchors": ["oceanmesh/cpp/fast_geometry.cpp:unique_edges"]}
{"id": "C75", "title": "Triangulation indices refer to the returned points", "statement": "After any sequence of insertions and removals, the connectivity obtained after the vertex list refers to valid positions and to the right coordinates.", "quantifier": "every history of insertions, removals and moves", "why_tests_cant": "Histories of operations; numbering is only refreshed on demand.", "anchors": ["oceanmesh/cpp/delaunay_class.cpp", "oceanmesh/mesh_generator.py:_get_topology"]}
{"id": "C76", "title": "DEM values sit at the right coordinates", "statement": "The value grid of a DEM has west-to-east as its first and south-to-north as its second axis, no-data cells become NaN, and flipping the sign twice restores the values.", "quantifier": "every raster and no-data value", "why_tests_cant": "All raster shapes.", "anchors": ["oceanmesh/geodata.py:DEM"]}
{"id": "C77", "title": "CRS inference", "statement": "_infer_crs_from_coordinates proposes geographic coordinates exactly when all box values are valid longitudes and latitudes.", "quantifier": "every box", "why_tests_cant": "Continuum of boxes.", "anchors": ["oceanmesh/geodata.py:_infer_crs_from_coordinates"]}
{"id": "C78", "title": "Circle coordinates", "statement": "create_circle_coords returns points that all have the given distance from the centre, the first at angle zero, and the ring is closed if the angle step divides 360 degrees.", "quantifier": "every centre, radius and step", "why_tests_cant": "Continuum of parameters.", "anchors": ["oceanmesh/geodata.py:create_circle_coords"]}
{"id": "C79", "title": "Resampled lines", "statement": "_resample_line returns points along the line from its start to its end that are at most half the minimum edge length apart.", "quantifier": "every line length and minimum edge length", "why_tests_cant": "Continuum of lengths; the end point and short lines are boundary cases.", "anchors": ["oceanmesh/edgefx.py:_resample_line"]}
{"id": "C80", "title": "Slope sizing stays between its limits", "statement": "bathymetric_gradient_sizing_function gives sizes between the minimum and the maximum edge length at every point of the box, with the same behaviour at the border of the box for every coarsening factor; for a plane bottom the size is 2 pi depth / (slope_parameter * slope); factors that are not positive integers are rejected.", "quantifier": "every DEM, filter, limits and coarsening factor", "why_tests_cant": "All elevation fields.", "anchors": ["oceanmesh/edgefx.py:bathymetric_gradient_sizing_function"]}
{"id": "C81", "title": "Feature sizing", "statement": "feature_sizing_function gives at each node the shoreline width divided by r, put between the limits, and never less than the recorded minimum size; r that is not positive is rejected.", "quantifier": "every distance field, divisor and limits", "why_tests_cant": "All distance fields.", "anchors": ["oceanmesh/edgefx.py:feature_sizing_function"]}
{"id": "C82", "title": "Writing a t3s file and reading it back gives the mesh", "statement": "Reading the file produced by write_to_t3s gives the node and element counts of the header, the coordinates with depth zero and the connectivity that were passed in.", "quantifier": "every mesh and creation date", "why_tests_cant": "All meshes; formatting and header parsing interact.", "anchors": ["oceanmesh/mesh_generator.py:write_to_t3s"]}
{"id": "C83", "title": "Locked boundaries do not move", "statement": "With lock_boundary, every vertex on the boundary of the triangulation that is not outside of the domain has the same position in the next iteration; all other vertices that are not fixed move by the time step times the force.", "quantifier": "every execution of the generator, triangulation engine and sizing function", "why_tests_cant": "Inductive over iterations and for all triangulation engines.", "anchors": ["oceanmesh/mesh_generator.py:generate_mesh", "oceanmesh/clean.py:_external_topology"]}
{"id": "C84", "title": "Distortion factors match the projection", "statement": "The factors by which sizes are multiplied for stereographic meshes are proportional to the local scale of the stereographic projection, which is the same in all directions.", "quantifier": "every longitude, latitude and radius", "why_tests_cant": "Statement about derivatives at all points of the sphere.", "anchors": ["oceanmesh/mesh_generator.py:_stereo_distortion", "oceanmesh/mesh_generator.py:_stereo_distortion_dist", "oceanmesh/region.py:to_stereo"]}
{"id": "C85", "title": "Subset of a NetCDF file", "statement": "If a NetCDF file is read through xarray, the DEM holds exactly the values of the file at the coordinates inside the requested box, at their coordinates, for axes in either direction; the array is the first variable with two dimensions or more, at index zero of all leading dimensions.", "quantifier": "every data array, axes and box", "why_tests_cant": "All array shapes, axis directions and boxes.", "anchors": ["oceanmesh/geodata.py:_try_subset_netcdf_with_xarray", "oceanmesh/geodata.py:_xr_find_overlap_index_range", "oceanmesh/geodata.py:_xr_subset_to_outputs", "oceanmesh/geodata.py:_xr_reduce_to_2d"]}
{"id": "C86", "title": "The box and coordinate system of a DEM", "statement": "A DEM read for a region covers the part of the region inside the raster; a raster without georeference is stretched so that its corner nodes are the corners of the region; the coordinate system of the DEM is that of its box.", "quantifier": "every raster, region and coordinate transformation", "why_tests_cant": "All boxes and transformations.", "anchors": ["oceanmesh/geodata.py:_read_dem_array_and_meta", "oceanmesh/geodata.py:_transform_bbox_to_src"]}
{"id": "C87", "title": "Meshes of several nested domains", "statement": "Every triangle of a multiscale mesh has its centroid inside one of the domains, by more than a thousandth of the smallest of the minimum sizes, and outside the coverings of all later domains by more than that; the mesh of each nest keeps exactly the triangles of its own part; blending starts from all vertices of the single meshes.", "quantifier": "every list of domains and sizing functions, triangulation engine and execution", "why_tests_cant": "Set operations over arbitrarily many domains combined with an iteration.", "anchors": ["oceanmesh/mesh_generator.py:generate_multiscale_mesh", "oceanmesh/signed_distance_function.py:multiscale_signed_distance_function"]}
{"id": "C88", "title": "Reading a shoreline", "statement": "The array read from a shoreline file holds exactly the geometries whose bounding boxes meet the interior of the region, in the order of the file, with their points unchanged apart from repetitions; an error is raised exactly if there is none or one of them is neither a line nor a polygon; the coordinate system used is that of the region, or the given one, or that of the file if a tuple in projected coordinates comes without one.", "quantifier": "every file content, region and coordinate system", "why_tests_cant": "All geometries and boxes.", "anchors": ["oceanmesh/geodata.py:Shoreline._read", "oceanmesh/geodata.py:Shoreline.__init__", "oceanmesh/geodata.py:remove_dup"]}
{"id": "C89", "title": "Clipping a shoreline", "statement": "Clipping keeps features inside the box (made larger by delta) as they are, removes those outside, and replaces the others by the outer rings of the parts inside; closed rings give closed rings; all points of the result lie in the larger box.", "quantifier": "every array of features, box and geometry library", "why_tests_cant": "All polygons.", "anchors": ["oceanmesh/geodata.py:_clip_polys"]}
{"id": "C90", "title": "Polygons of a shoreline are closed and large enough", "statement": "If the geometries of the file are closed rings, all polygons stored in a Shoreline (islands, mainland, bounding polygon) are closed such that get_poly_edges gives all their sides, whatever the options; every island has at least the area minimum_area_mult times h0 squared.", "quantifier": "every file, region, options and geometry library with closed outer rings", "why_tests_cant": "Composition of reading, smoothing, densifying, clipping and classifying for all inputs.", "anchors": ["oceanmesh/geodata.py:Shoreline.__init__", "oceanmesh/geodata.py:_classify_shoreline", "oceanmesh/edges.py:get_poly_edges"]}
{"id": "C91", "title": "The Rossby radius filter filters", "statement": "rossby_radius_filter returns at each node the slope of the depths low-pass filtered with a wavelength of about the Rossby radius of deformation divided by the filter quotient; it accepts every grid, also global and projected ones; every filter named in the documentation can be selected.", "quantifier": "every elevation field, grid, quotient and low-pass filter", "why_tests_cant": "All elevation fields; the blocks and levels depend on size and latitude.", "anchors": ["oceanmesh/edgefx.py:rossby_radius_filter", "oceanmesh/edgefx.py:bathymetric_gradient_sizing_function"]}
{"id": "C92", "title": "Points of the distance sizing functions on the grid", "statement": "The nodes marked for the distance computation are those nearest to the given points (lines are sampled in steps of half the minimum edge length), within half a spacing along each axis; the size at a marked node is the minimum edge length; points outside the box are not used; for a shoreline exactly the nodes outside the bounding polygon are masked.", "quantifier": "every grid, file content, KD-tree and distance solver", "why_tests_cant": "All points, grids and tie-breaking rules of the tree.", "anchors": ["oceanmesh/edgefx.py:distance_sizing_from_line_function", "oceanmesh/edgefx.py:distance_sizing_from_point_function", "oceanmesh/edgefx.py:distance_sizing_function", "oceanmesh/grid.py:Grid.find_indices"]}
{"id": "C93", "title": "The border of an array", "statement": "get_border returns each border cell of the array exactly once and no inner cell.", "quantifier": "every number of rows and columns", "why_tests_cant": "All shapes.", "anchors": ["oceanmesh/grid.py:Grid.get_border"]}
{"id": "C94", "title": "generate_mesh returns a well-formed mesh", "statement": "For every domain and sizing function that do not raise, every start points and every number of iterations, generate_mesh returns; all indices of the result are valid, every vertex belongs to a triangle, no triangle occurs twice and all areas are non-negative; every vertex is a point of the last triangulation or a fixed point.", "quantifier": "every execution of the generator, triangulation engine, domain and sizing function", "why_tests_cant": "Liveness over all executions and engines.", "anchors": ["oceanmesh/mesh_generator.py:generate_mesh"]}
{"id": "C95", "title": "The inside test does not depend on the ray", "statement": "For a set of closed rings, the answer of the inside test at a point equals the parity of the number of edges crossed by any path (of straight steps, meeting edges only in proper crossings) from the point to the outside of the bounding box; it changes at every crossing of an edge and is constant along paths that meet no edge.", "quantifier": "every set of closed rings, point, path and tolerance", "why_tests_cant": "A statement on all paths in the plane.", "anchors": ["oceanmesh/geometry/point_in_polygon.py:_inpoly_raycasting", "oceanmesh/geometry/point_in_polygon_.pyx:inpoly2_fast"]}
{"id": "C96", "title": "Cleaning functions keep a mesh good", "statement": "make_mesh_boundaries_traversable, delete_faces_connected_to_one_face and delete_boundary_faces give from a good mesh (valid indices, all vertices used, no two vertices closer than the tolerance of fix_mesh, three different corners, no triangle twice, no edge in more than two triangles, areas not negative) a good mesh whose vertices and triangles are vertices and triangles of the input; the first gives traversable boundaries and the second leaves no triangle with only one neighbour, with hypotheses on the input only.", "quantifier": "every mesh, sort order, quality measure and limit", "why_tests_cant": "Inductive over the passes of each function for all meshes.", "anchors": ["oceanmesh/clean.py:make_mesh_boundaries_traversable", "oceanmesh/clean.py:delete_faces_connected_to_one_face", "oceanmesh/clean.py:delete_boundary_faces"]}
{"id": "C97", "title": "The documented cleaning sequence", "statement": "After the sequence of the README (make_mesh_boundaries_traversable, delete_faces_connected_to_one_face, delete_boundary_faces, laplacian2) every boundary vertex lies on exactly two boundary edges and no triangle has only one neighbour.", "quantifier": "every good mesh", "why_tests_cant": "Composition of four functions for all meshes; each step could undo what an earlier one established.", "anchors": ["oceanmesh/clean.py:make_mesh_boundaries_traversable", "oceanmesh/clean.py:delete_faces_connected_to_one_face", "oceanmesh/clean.py:delete_boundary_faces", "oceanmesh/clean.py:laplacian2"]}
{"id": "C98", "title": "The sizing function of the documentation", "statement": "compute_minimum followed by enforce_mesh_gradation gives, for sizing grids with positive sizes that can be aligned, a grid on the lattice of the first one in which no size exceeds any of the given ones at the node; the recorded minimum is positive, the smallest size of the result and one of the given sizes; evaluated at any point of the box, the size is at least the recorded minimum.", "quantifier": "every list of sizing grids with positive sizes, gradation and coordinate transformation", "why_tests_cant": "Composition over all size fields and lists of grids.", "anchors": ["oceanmesh/grid.py:compute_minimum", "oceanmesh/edgefx.py:enforce_mesh_gradation", "oceanmesh/grid.py:Grid.build_interpolant"]}
{"id": "C99", "title": "Generated and cleaned meshes", "statement": "If no two points of the last iteration are closer than the tolerance of fix_mesh, the mesh returned by generate_mesh is good (valid indices, all vertices used and different, three different corners, no triangle twice, no edge in more than two triangles, areas not negative) and its triangles are those of the last triangulation with centroid inside the domain; whenever make_mesh_boundaries_traversable returns on it, delete_faces_connected_to_one_face returns a good mesh with traversable boundaries, without triangles with only one neighbour, every triangle of which is one of the last triangulation and has its centroid inside the domain by the geometric tolerance.", "quantifier": "every execution of the generator with a triangulation engine whose faces form a complex, domain, sizing function, and choice of the random starts of the cleaning", "why_tests_cant": "Composition of the generator and two cleaning loops for all executions.", "anchors": ["oceanmesh/mesh_generator.py:generate_mesh", "oceanmesh/clean.py:make_mesh_boundaries_traversable", "oceanmesh/clean.py:delete_faces_connected_to_one_face", "oceanmesh/fix_mesh.py:fix_mesh"]}
{"id": "C100", "title": "Arguments and options of generate_mesh", "statement": "Giving a documented default is the same as leaving an option out; the order of options and options for display do not matter; the box of a Domain and the minimum of a grid are used whatever bbox and min_edge_length say; with an integer seed the result does not depend on anything random; unknown options, missing required ones, boxes that are not of four numbers, seeds and iteration numbers of wrong type raise; otherwise the number of iterations is the given one, the first triangulation is that of the given points or of the fixed points and points of the lattice of the box with the minimum size as spacing, and the tolerance of the inside test is a thousandth of the minimum size.", "quantifier": "every domain, sizing function, dictionary of options and engine", "why_tests_cant": "All combinations of arguments and options.", "anchors": ["oceanmesh/mesh_generator.py:generate_mesh", "oceanmesh/mesh_generator.py:_unpack_domain", "oceanmesh/mesh_generator.py:_unpack_sizing", "oceanmesh/mesh_generator.py:_unpack_pfix", "oceanmesh/mesh_generator.py:_check_bbox", "oceanmesh/mesh_generator.py:_generate_initial_points"]}
{"id": "C101", "title": "The inside test is right for all regions", "statement": "For a region cut into triangles without common inner points, with the sides that belong to an odd number of triangles as edges (holes and several parts included), a point not reported on the boundary is reported inside exactly if it lies in one of the triangles; for a convex ring of any number of vertices exactly if it is left of all edges; for the boundary edges of a mesh exactly if it lies in a triangle of the mesh.", "quantifier": "every region, point and tolerance", "why_tests_cant": "All polygons with holes; all positions of the point relative to vertices and edges.", "anchors": ["oceanmesh/geometry/point_in_polygon.py:_inpoly_raycasting", "oceanmesh/geometry/point_in_polygon_.pyx:inpoly2_fast", "oceanmesh/edges.py:get_boundary_edges"]}
{"id": "C102", "title": "The signed distance of a shoreline", "statement": "For a shoreline with closed polygons, signed_distance_function returns functions that work point by point for every array of points; a point off the edges has a negative value exactly if it lies in the region of the bounding polygon and in that of all polygons (outside the islands), the size is the distance to the shoreline; points that are not finite are outside.", "quantifier": "every shoreline with closed polygons, configuration of the inside test, array of points", "why_tests_cant": "All polygon arrays and points; composition of array construction, edge construction and inside test.", "anchors": ["oceanmesh/signed_distance_function.py:signed_distance_function", "oceanmesh/edges.py:get_poly_edges", "oceanmesh/geometry/point_in_polygon.py:inpoly2"]}
{"id": "C103", "title": "Meshes of the sea", "statement": "In generate_mesh with the domain of a shoreline and the compiled inside test, in every iteration (points within the tolerance of the inside test from an edge excepted) exactly those triangles are kept whose centroids lie in the sea and farther than geps from the vertices of the shoreline; all triangles of the returned mesh, also after make_mesh_boundaries_traversable and delete_faces_connected_to_one_face, have centroids in the sea; start points lie in the sea or near a vertex of the shoreline.", "quantifier": "every shoreline with closed polygons whose regions can be cut into triangles, sizing function, triangulation engine and execution", "why_tests_cant": "Composition of domain construction, iteration and cleaning for all executions.", "anchors": ["oceanmesh/signed_distance_function.py:signed_distance_function", "oceanmesh/mesh_generator.py:generate_mesh"]}
{"id": "C104", "title": "Gradation of global sizing functions", "statement": "With stereo=True enforce_mesh_gradation returns, for every field of numbers and all maps between the coordinate systems, a grid on the same lattice whose neighbouring sizes respect the gradation; no size is larger than the given one; no size is smaller than the smallest given size.", "quantifier": "every grid, field of sizes, gradation and projection", "why_tests_cant": "Two limited fields on different lattices are combined, for all fields.", "anchors": ["oceanmesh/edgefx.py:enforce_mesh_gradation"]}
{"id": "C105", "title": "Messages of the multiscale validation", "statement": "Each message of _validate_multiscale_domains is given exactly if its cause is present: every domain without CRS (if any CRS is known), every sizing function whose CRS differs from that of its domain or cannot be compared, several stereographic domains, one that is not the first, a global CRS that is not WGS84 or cannot be read, every region not contained, stereographic or incompatible, mixed systems; no cause hides another one, except that a CRS that cannot be read ends the search for mixed systems; the validation raises exactly if a box it needs is missing.", "quantifier": "every list of domains and sizing functions, CRS engine and projection", "why_tests_cant": "Arbitrarily many domains with several problems at the same time.", "anchors": ["oceanmesh/mesh_generator.py:_validate_multiscale_domains"]}
{"id": "C106", "title": "Circles", "statement": "create_circle returns for every centre and radius 63 points at that radius, at angles 0.1 apart, counterclockwise; neighbours are equally far apart and the last point is nearer to the first without repeating it; as a polygon it contains, by the inside test, all points nearer to the centre than the radius times cos 0.05 and none farther than the radius.", "quantifier": "every centre, positive radius and point", "why_tests_cant": "Uncountably many points and circles; the loop ends by comparing with 2 pi.", "anchors": ["oceanmesh/signed_distance_function.py:create_circle", "oceanmesh/geometry/point_in_polygon_.pyx:inpoly2_fast"]}
{"id": "C107", "title": "Lengths of polygons", "statement": "_poly_length is the sum of the lengths of all edges of the polygon, whether or not its first point is repeated at the end.", "quantifier": "every polygon", "why_tests_cant": "All polygons, near the tolerances of isclose.", "anchors": ["oceanmesh/geodata.py:_poly_length"]}
{"id": "C108", "title": "Sizing functions around the globe", "statement": "For boxes from -180 to 180 the functions for gradation, bounds, distances, features and the minimum of several grids give at each meridian the sizes of that meridian, and the result respects the gradation.", "quantifier": "every grid, box, field of sizes, DEM, list of grids", "why_tests_cant": "All grids; the values of the first and last meridian pass through several constructors.", "anchors": ["oceanmesh/grid.py:Grid.build_interpolant", "oceanmesh/edgefx.py:enforce_mesh_gradation", "oceanmesh/edgefx.py:enforce_mesh_size_bounds_elevation", "oceanmesh/edgefx.py:feature_sizing_function", "oceanmesh/grid.py:compute_minimum"]}
{"id": "C109", "title": "Bounds of regions", "statement": "total_bounds of a Region is the smallest box containing its points and is accepted as extent of a region; after transform_to the extent contains the images of the points of the former one.", "quantifier": "every tuple, polygon, coordinate system and transformer", "why_tests_cant": "All regions and transformers.", "anchors": ["oceanmesh/region.py:Region.total_bounds", "oceanmesh/region.py:Region.transform_to"]}
{"id": "C110", "title": "Version of the package", "statement": "The version tells which commit the package was built from: the output of git describe is read back for every tag, number of commits, hash and state of changes; the version is the tag exactly at the tag, otherwise the tag with segments allowed by PEP 440 that name commits, hash and changes; different commits have different versions; an exported commit has the newest of its version tags as version; an unpacked release without git and keywords has the version in the name of its directory.", "quantifier": "every tag, hash, number of commits, list of names in the decoration of a commit", "why_tests_cant": "All strings; tags may contain hyphens and plus signs.", "anchors": ["oceanmesh/_version.py:git_pieces_from_vcs", "oceanmesh/_version.py:render_pep440", "oceanmesh/_version.py:render_git_describe", "oceanmesh/_version.py:render_git_describe_long", "oceanmesh/_version.py:git_versions_from_keywords", "oceanmesh/_version.py:get_versions", "oceanmesh/_version.py:versions_from_parentdir"]}
{"id": "C111", "title": "Feature sizes of a shoreline", "statement": "feature_sizing_function returns for every shoreline, domain and box with area a grid of spacing h0; the size at each node is twice the distance to the medial axis of the nodes inside the domain plus the distance to the nodes next to the shoreline, divided by r and put between the limits; nodes without a known distance do not count as inside; sizes of neighbouring nodes differ at most by 4 h0 / r.", "quantifier": "every shoreline, signed distance function, box, divisor, limits, medial axis and distance solver", "why_tests_cant": "All shorelines and fields; the answer at a node is read from a finer lattice.", "anchors": ["oceanmesh/edgefx.py:feature_sizing_function", "oceanmesh/grid.py:Grid.find_indices", "oceanmesh/grid.py:Grid.interpolate_to"]}
{"id": "C112", "title": "The statistics of Invdisttree describe the interpolated points", "statement": "Every call of an Invdisttree object that returns gives the inverse distance interpolation of its data at every query point, whatever calls came before. After any history of calls the stored weights are not negative and add up to the number of query points that were interpolated with weights, so that the average weights add up to one.", "quantifier": "every data array, every history of calls with any numbers of neighbours, weights and query points, including calls that raised", "why_tests_cant": "The statistics are only looked at in a demonstration script that makes one call; histories of calls with different numbers of neighbours are not tested.", "anchors": ["oceanmesh/idw.py:Invdisttree"]}
{"id": "C113", "title": "The gradient limiter in floating-point arithmetic", "statement": "With every sum and product rounded (in particular to doubles, with or without fused multiply-add), the limiter stays inside its arrays, only lowers sizes, returns rounded values that are not below the smallest size nor below the rounded lower envelope, returns a graded field unchanged, and ends by convergence on positive sizes; where it has converged, neighbouring sizes respect the gradation up to the tolerance and the rounding errors.", "quantifier": "every rounding rule that keeps the order, every grid, field of non-negative rounded sizes, gradation, spacing and iteration limit", "why_tests_cant": "Tests see a few fields; termination and the bounds depend on rounding in ways that only show for special values.", "anchors": ["oceanmesh/cpp/HamiltonJacobi.cpp:c_gradient_limit"]}
{"id": "C114", "title": "The inside test in floating-point arithmetic", "statement": "With every operation of the compiled inside test rounded (in particular to doubles, with or without fused multiply-add), a point is reported on the boundary exactly if it is at most the tolerance away from an edge, up to a multiple of the rounding error; all other points get the answer of exact arithmetic, which for regions cut into triangles is the geometric one; points exactly on an edge and vertices are reported; the order of the edges does not matter.", "quantifier": "every rounding rule that keeps the order, every list of edges, tolerance and point", "why_tests_cant": "The answer near an edge depends on the rounding of quotients; tests use small integer coordinates where nothing is rounded.", "anchors": ["oceanmesh/geometry/point_in_polygon_.pyx:inpoly2_fast"]}
{"id": "C115", "title": "Areas and orientation in floating-point arithmetic", "statement": "With every operation rounded (in particular to doubles), simp_vol is the signed area up to three rounding errors of the two products; it is exactly zero if two corners coincide; after the orientation step of fix_mesh every triangle is counterclockwise and has a computed area that is not negative, so that repeating the step changes nothing.", "quantifier": "every rounding rule, triangle and table", "why_tests_cant": "Rounding only matters for slivers; the sign depends on the order in which the corners are subtracted.", "anchors": ["oceanmesh/fix_mesh.py:simp_vol", "oceanmesh/fix_mesh.py:fix_mesh"]}
{"id": "C116", "title": "The second clipping function", "statement": "_clip_polys_2 returns for every polygon with a point in the enlarged box a closed line inside that box, which contains the points of the polygon that are in the box in their order and the corners beyond which the polygon has points, and encloses the common part of the polygon and the box; it returns if some polygon meets the box.", "quantifier": "every box, polygon array and inside test that is right away from the border of the box", "why_tests_cant": "No code of the package calls the function, so it is not tested at all.", "anchors": ["oceanmesh/geodata.py:_clip_polys_2"]}
{"id": "C117", "title": "The node lattice of a grid in floating-point arithmetic", "statement": "With every operation rounded (in particular to doubles), a grid built with a scalar has along each side exactly one node more than the number of whole steps that fit into the rounded length of the side; the first node is the corner of the box, the nodes ascend strictly, and the last node lies in the box and less than one spacing before its end.", "quantifier": "every rounding rule that keeps the order, every box and spacing with fewer than 2^49 steps", "why_tests_cant": "Whether the last node is there depends on the rounding of a floor division (0.3 // 0.1 is 2); tests use a few boxes.", "anchors": ["oceanmesh/grid.py:Grid.values", "oceanmesh/grid.py:Grid.create_vectors"]}
{"id": "C118", "title": "Merging of vertices in floating-point arithmetic", "statement": "With every operation rounded (in particular to doubles), fix_mesh merges vertices only if they differ by at most the tolerance times the extent of the points; the merged vertices are input vertices, different from each other, every vertex has a place among them, and identical vertices have the same place.", "quantifier": "every rounding rule that keeps the order, every list of points and positive tolerance", "why_tests_cant": "The tolerance 2e-13 is only a few hundred times the rounding error; for points far from the origin the snapped values are dominated by rounding.", "anchors": ["oceanmesh/fix_mesh.py:fix_mesh"]}
{"id": "C119", "title": "Laplacian smoothing in floating-point arithmetic", "statement": "With every sum and quotient of coordinates rounded (in particular to doubles), laplacian2 returns on every mesh with vertices and valid indices, keeps the triangles and the boundary and fixed vertices exactly, moves every other vertex to the mean of its neighbours up to the rounding errors of one sum and one quotient, and keeps all vertices inside the bounding box of the input, after any number of iterations.", "quantifier": "every mesh, every rounding rule with a bounded relative error, every iteration limit, tolerance and set of fixed vertices", "why_tests_cant": "Rounding errors accumulate over neighbours and iterations; a test sees one mesh and tolerances hide the last place.", "anchors": ["oceanmesh/clean.py:laplacian2"]}
{"id": "C120", "title": "fix_mesh in floating-point arithmetic", "statement": "With every operation on coordinates rounded (in particular to doubles), fix_mesh returns on every non-empty vertex array with valid indices; the result has valid indices, no vertex twice, no two triangles with the same vertices and, with delete_unused=True, no unused vertex; every triangle is represented by one whose corners are input vertices within the tolerance and the other way round; every triangle of the result is counterclockwise or has no area.", "quantifier": "every mesh, rounding rule, tolerance, sorting order of the unique rows and value of delete_unused", "why_tests_cant": "The steps interact: rounding decides which vertices are merged, and the rows are sorted and renumbered before they are oriented.", "anchors": ["oceanmesh/fix_mesh.py:fix_mesh", "oceanmesh/fix_mesh.py:unique_rows", "oceanmesh/fix_mesh.py:simp_vol"]}
{"id": "C121", "title": "fix_mesh of its own result", "statement": "Calling fix_mesh on the mesh it returned gives the same mesh again, in exact and in floating-point arithmetic.", "quantifier": "every mesh, rounding rule, tolerance, sorting order of the unique rows and value of delete_unused", "why_tests_cant": "The snapping lattice is derived from the vertices that are left, so the second call works with other cells; this only matters for vertices close to each other.", "anchors": ["oceanmesh/fix_mesh.py:fix_mesh"]}
{"id": "C122", "title": "Both inside tests in floating-point arithmetic", "statement": "With every operation rounded (in particular to doubles), the Python kernel and the compiled kernel of the inside test give the same answer for every point that is farther than the tolerance and the rounding errors from all edges of a closed polygon, and this answer is right; points reported on the boundary are that near to an edge, and points of edges are reported.", "quantifier": "every rounding rule, closed polygon and point", "why_tests_cant": "Which kernel runs depends on whether the extension was compiled; tests run only one of them and use points well inside or outside.", "anchors": ["oceanmesh/geometry/point_in_polygon.py:_inpoly_raycasting", "oceanmesh/geometry/point_in_polygon_.pyx:inpoly2_fast"]}
{"id": "C123", "title": "Reprojection of a grid", "statement": "reproject_to puts a grid onto the lattice and into the coordinate system of a target: the result has box, spacings, shape and system of the target, and at every node the size the source has at the place of the node; all sizes lie between the smallest and the largest size of the source, and in equal systems the result is that of interpolate_to.", "quantifier": "every source grid, target grid and coordinate transformation", "why_tests_cant": "No code of the package and no test calls the function; it depends on the position of every node after the transformation.", "anchors": ["oceanmesh/grid.py:Grid.reproject_to"]}
{"id": "C124", "title": "Initial points in floating-point arithmetic", "statement": "With every operation on coordinates and sizes rounded (in particular to doubles), the lattice of initial points begins at the lower corner of the box, ascends strictly along both axes, covers the box up to half a step and ends at or behind the upper corner but less than one step behind it; every initial point that is not fixed is a lattice point with a signed distance below the tolerance; the probability to keep a point is at most one, falls with the size and is one at the smallest size.", "quantifier": "every rounding rule with a bounded relative error, box, minimum edge length, size function, distance function and sequence of random numbers", "why_tests_cant": "The number of lattice rows comes from the ceiling of a rounded quotient; whether a row is lost or added depends on the last place of the box.", "anchors": ["oceanmesh/mesh_generator.py:_generate_initial_points"]}
{"id": "C125", "title": "Mesh generator in floating-point arithmetic", "statement": "With every operation on coordinates, lengths and sizes rounded (in particular to doubles), generate_mesh keeps its guarantees: fixed points and locked boundary vertices keep their exact coordinates in all iterations; the triangles kept are those whose computed centroid is inside; bars push their ends apart along the bar, a bar longer than its desired length exerts no force, and the forces add up to zero; points that are not outside are not projected; the mesh returned is well formed and its triangles are counterclockwise with their centroid inside; it raises only without start points, without iterations or without a usable size.", "quantifier": "every rounding rule that keeps the order and has a bounded relative error, distance and size function, triangulation engine, square root, number of iterations and set of start points", "why_tests_cant": "Errors of all iterations accumulate in the vertices; whether a fixed point is found again depends on computed distances being exactly zero.", "anchors": ["oceanmesh/mesh_generator.py:generate_mesh", "oceanmesh/mesh_generator.py:_compute_forces", "oceanmesh/mesh_generator.py:_project_points_back", "oceanmesh/mesh_generator.py:_remove_triangles_outside", "oceanmesh/mesh_generator.py:_closest_node"]}
{"id": "C126", "title": "Meshes of the sea in floating-point arithmetic", "statement": "With every operation of the inside tests and of the mesh generator rounded (in particular to doubles), the mesh generated for the signed distance function of a shoreline is a mesh of the sea: the centroid of every returned triangle that is farther than the tolerances and rounding errors (in degrees and doubles 1.5e-10) from all edges of the shoreline lies in the sea and not on an island; in every iteration the triangles kept are those whose centroid lies in the sea, up to that margin; start points lie in the sea or at the shore; fixed points on the shore or in the sea are vertices with their exact coordinates.", "quantifier": "every shoreline of closed polygons, box, rounding rule, inside test (compiled or Python), size function, triangulation engine and number of iterations", "why_tests_cant": "It combines the errors of the inside test, of all iterations and of fix_mesh; tests look at the number of points and triangles.", "anchors": ["oceanmesh/signed_distance_function.py:signed_distance_function", "oceanmesh/mesh_generator.py:generate_mesh", "oceanmesh/geometry/point_in_polygon.py:inpoly2"]}
{"id": "C127", "title": "The check of built packages", "statement": "verify_manylinux_wheels ends with status zero exactly if the directory has a wheel for Linux on x86_64 and every such wheel has a manylinux tag, names no version of the C library above the allowed one, and contains the libraries gmp and mpfr; the version compared is the largest one named, as pairs of numbers.", "quantifier": "every list of wheels, names, outputs of auditwheel and members, and every allowed version", "why_tests_cant": "The outputs of auditwheel are free text; a regular expression searches them from left to right.", "anchors": ["tools/verify_manylinux_wheels.py:main", "tools/verify_manylinux_wheels.py:_parse_glibc_symbols", "tools/verify_manylinux_wheels.py:_wheel_contains_shared_lib"]}
{"id": "C128", "title": "Sizes in floating-point arithmetic", "statement": "With every operation rounded, the sizes at the nodes of a grid keep their limits exactly and their order in distance, depth and slope, and are within six roundings of the exact formula; evaluated between the nodes they stay between the smallest and largest size at the nodes and are within a few roundings of exact linear interpolation; at the nodes the stored size is returned unchanged.", "quantifier": "every rounding rule with relative error u (in particular doubles), grid with ordered nodes, nonnegative sizes, point of the lattice, distance, depth and slope", "why_tests_cant": "Rounding errors depend on all inputs; tests compare a few sizes with tolerances.", "anchors": ["oceanmesh/edgefx.py:distance_sizing_from_line_function", "oceanmesh/edgefx.py:wavelength_sizing_function", "oceanmesh/edgefx.py:bathymetric_gradient_sizing_function", "oceanmesh/edgefx.py:feature_sizing_function", "oceanmesh/grid.py:Grid.build_interpolant"]}
{"id": "C129", "title": "Rectangles and circles in floating-point arithmetic", "statement": "With every operation rounded, the distance function of a rectangle is negative exactly at the points strictly inside and positive exactly at the points outside, with one relative rounding error; the centroids of the triangles of a mesh of a rectangle are inside it by the tolerance of the generator, up to the tolerance of fix_mesh and rounding errors; a vertex that left the rectangle is moved back to its boundary, up to rounding errors, and perpendicularly to the side; create_circle returns 63 points on the circle, up to rounding errors.", "quantifier": "every rounding rule with relative error u (in particular doubles), rectangle, point, start points, number of iterations, centre and radius", "why_tests_cant": "The sign at points next to a side and the accumulated angle of the loop depend on the last bits.", "anchors": ["oceanmesh/signed_distance_function.py:create_bbox", "oceanmesh/signed_distance_function.py:create_circle", "oceanmesh/mesh_generator.py:_project_points_back", "oceanmesh/mesh_generator.py:_remove_triangles_outside"]}
{"id": "C130", "title": "Cleaning in floating-point arithmetic", "statement": "With every operation rounded and the areas added up in any order, the cleaning passes and mesh_clean terminate and keep their guarantees: make_mesh_boundaries_traversable only removes triangles and leaves every boundary vertex on two boundary edges; delete_exterior_faces returns exactly the components above the threshold whatever the random numbers; delete_boundary_faces removes exactly the bad triangles at the boundary; the result of mesh_clean has valid indices, no unused or repeated vertex and no repeated triangle, its triangles are counterclockwise, and its vertices lie in the bounding box of the input.", "quantifier": "every rounding rule with relative error u (in particular doubles), order of summation, mesh, threshold, limit and sequence of random numbers", "why_tests_cant": "Termination of loops whose exit depends on rounded areas; whether a component near the threshold is kept depends on the last bits.", "anchors": ["oceanmesh/clean.py:mesh_clean", "oceanmesh/clean.py:make_mesh_boundaries_traversable", "oceanmesh/clean.py:delete_exterior_faces", "oceanmesh/clean.py:delete_boundary_faces", "oceanmesh/clean.py:delete_faces_connected_to_one_face"]}
{"id": "C131", "title": "Quality in floating-point arithmetic", "statement": "With every operation rounded, simp_qual returns for three different corners a number that differs from the exact quality only by a small factor, is never negative, is NaN for two equal corners only, and doubles when the coordinates are doubled; so delete_boundary_faces deletes the triangles at the boundary below the limit and no others, up to that factor, and the face with the lowest computed quality has nearly the lowest quality.", "quantifier": "every rounding rule with relative error u (in particular doubles), triangle, mesh and limit", "why_tests_cant": "Differences of nearly equal lengths cancel; the sign of a product of three such differences decides between a number and NaN.", "anchors": ["oceanmesh/fix_mesh.py:simp_qual", "oceanmesh/clean.py:delete_boundary_faces"]}
{"id": "C132", "title": "Inverse-distance interpolation in floating-point arithmetic", "statement": "With every operation rounded and the sums and scalar products added up in any order, the interpolated value is a number that differs from the exact weighted mean by at most 3 (n + 4) u times the mean of the absolute values; it is the value of the data at a data point, lies between the smallest and largest value of the neighbours, and reproduces constant data; the marked nodes of a blended grid get positive sizes, the others stay as they are, and the announced smallest size is one of the filled sizes.", "quantifier": "every rounding rule with relative error u (in particular doubles), order of summation, exponent, list of neighbours, positive multipliers and data", "why_tests_cant": "The result depends on the order in which numpy and the linear algebra library add, which differs between machines.", "anchors": ["oceanmesh/idw.py:Invdisttree.__call__", "oceanmesh/grid.py:Grid.blend_into"]}
{"id": "C133", "title": "Shorelines in floating-point arithmetic", "statement": "With every operation rounded, n refinements of a feature by corner cutting return 2^n times as many points, keep its first and last point and its bounding box exactly, and are within 3 n u M of the exact result; so closed rings stay closed when a shoreline is smoothed; densifying keeps all points and inserts points on the segments such that neighbours differ by no more than the spacing, and no more points than needed; the area of a polygon does not depend on where it lies and has an error of at most 2 n (n + 3) u M^2.", "quantifier": "every rounding rule with relative error u (in particular doubles), features with coordinates up to M, number of refinements, spacing, mask, order of summation", "why_tests_cant": "Whether 3/4 x + 1/4 x is x for every double, and how errors of repeated refinement add up, cannot be sampled.", "anchors": ["oceanmesh/geodata.py:_chaikins_corner_cutting", "oceanmesh/geodata.py:_smooth_shoreline", "oceanmesh/geodata.py:_densify", "oceanmesh/geodata.py:_create_ranges", "oceanmesh/geodata.py:_poly_area"]}
{"id": "C134", "title": "Grids as objects", "statement": "In every history of assignments to attributes, writes into the values, transform_to, build_interpolant and flip on any number of grids, the spacings stay positive, the box stays ordered, the shape is the shape of the values and the interpolator refers to existing values; the corner of the lattice never changes; an operation that raises leaves the grid as it was; grids that share no array do not influence each other; after build_interpolant the interpolator returns the current values at the nodes and follows changes in place; the interpolator belongs to the current values and the nodes to the box, also after values are assigned or the grid is transformed or built again.", "quantifier": "all grids, heaps of arrays shared in any way, coordinate systems and finite sequences of operations on them", "why_tests_cant": "Aliased arrays and stale interpolators show only in particular orders of operations on several grids.", "anchors": ["oceanmesh/grid.py:Grid", "oceanmesh/grid.py:Grid.build_interpolant", "oceanmesh/grid.py:Grid.flip", "oceanmesh/region.py:Region.transform_to"]}
{"id": "C135", "title": "32-bit integers in the compiled code", "statement": "With indices, sizes and products computed in 32-bit integers, the gradient limiter, unique_edges, the numbering of inserted points and the tables of vertices, faces and neighbours give the results of unbounded integers, for fields and meshes of every size.", "quantifier": "all dimensions, fields, numbers of iterations, edge lists, point lists and table sizes", "why_tests_cant": "Overflow needs arrays of gigabytes, and signed overflow is undefined behaviour that a test may not show.", "anchors": ["oceanmesh/cpp/HamiltonJacobi.cpp:c_gradient_limit", "oceanmesh/cpp/HamiltonJacobi.cpp:gradient_limit", "oceanmesh/cpp/fast_geometry.cpp:unique_edges", "oceanmesh/cpp/delaunay_class.cpp:insert", "oceanmesh/cpp/delaunay_class.cpp:get_finite_cells", "oceanmesh/cpp/delaunay_class.cpp:get_finite_face_neighbors", "oceanmesh/cpp/delaunay_class.cpp:get_finite_vertices"]}
{"id": "C136", "title": "Versions in all styles and their order", "statement": "The text of a PEP 440 version determines it. In every style that follows PEP 440, a commit after a tag that is a version, or a changed copy of it, gets a version that is newer than the tag; with more commits since the tag it is newer; in the style of the package it is older than every later version without local part, a changed copy is newer than the commit, and a commit without tag is older than every release with a number that is not zero. For a commit that is not the tip of a branch the master branch is taken if it contains the commit, otherwise the first branch that does. Unknown styles raise.", "quantifier": "all tags that are versions, distances, hashes, branches, styles", "why_tests_cant": "The order of versions compares numbers, words and missing parts by rules of their own; tests look at single texts.", "anchors": ["oceanmesh/_version.py:render_pep440", "oceanmesh/_version.py:render_pep440_branch", "oceanmesh/_version.py:pep440_split_post", "oceanmesh/_version.py:render_pep440_pre", "oceanmesh/_version.py:render_pep440_post", "oceanmesh/_version.py:render_pep440_post_branch", "oceanmesh/_version.py:render_pep440_old", "oceanmesh/_version.py:render", "oceanmesh/_version.py:git_pieces_from_vcs"]}
{"id": "C137", "title": "Attributes of a shoreline object", "statement": "Whatever sequence of attribute writes follows the constructor, and wherever it stops with an exception, the attributes of a shoreline object keep the ranges that their messages name: h0 > 0, refinements > 0, minimum_area_mult > 0; each write either stores its value and leaves the others alone, or raises and changes nothing; the last successful write decides.", "quantifier": "all constructor arguments and all sequences of attribute writes", "why_tests_cant": "The setters are run in an order fixed by the constructor and can be called again in any order by the caller; tests set one attribute once.", "anchors": ["oceanmesh/geodata.py:Shoreline.__init__", "oceanmesh/geodata.py:Shoreline.h0", "oceanmesh/geodata.py:Shoreline.refinements", "oceanmesh/geodata.py:Shoreline.minimum_area_mult"]}
{"id": "C138", "title": "Small helpers: polygon files, change of coordinates, samples in a box, sparse matrix", "statement": "get_polygon_coordinates gives the outline of the area in the file for all files it accepts; warp_coordinates changes each point by the transformation and keeps the order and number; get_crs_string names the system; _generate_samples gives, in two and three dimensions, as many points as asked for, all in the box widened by 0.01, and every such point can be drawn; _sparse sums the values of equal positions, and the row sums of the matrix of laplacian2 are twice the numbers of triangles at the nodes.", "quantifier": "all files, transformations, boxes, numbers of samples, lists of entries", "why_tests_cant": "The helpers have branches for inputs that the tests do not use (files with holes, several features, three dimensions, repeated entries).", "anchors": ["oceanmesh/geodata.py:get_polygon_coordinates", "oceanmesh/region.py:warp_coordinates", "oceanmesh/region.py:get_crs_string", "oceanmesh/signed_distance_function.py:_generate_samples", "oceanmesh/clean.py:_sparse", "oceanmesh/clean.py:laplacian2"]}
{"id": "C139", "title": "Extension modules and requirements in setup.py", "statement": "With pybind11 every compiled module that the package imports is in the list of extensions exactly once, made of its own source and linked with gmp and mpfr; the module for points in polygons is in it exactly if numpy and a source are there; no name occurs twice, with and without Cython. Outside Windows the directories of the prefix are used exactly if they exist and the library directory is also put on the run path; on Windows the prefix is used only if both exist, vcpkg otherwise. The requirements are the entries of setup.cfg, with fiona held below 1.10 for old Python versions.", "quantifier": "all environments, directories, sets of importable modules, requirement lists", "why_tests_cant": "A build shows one environment; the others are other platforms and missing packages.", "anchors": ["setup.py:_get_prefix_paths", "setup.py:maybe_add_cython_extensions", "setup.py:get_requirements"]}
{"id": "C140", "title": "Orientation of triangles in mesh files", "statement": "A counter-clockwise triangle of the mesh is counter-clockwise in the file written by write_to_fort14 and in the file written by write_to_t3s, as read back, and vertices that differ in the mesh differ in the file.", "quantifier": "all point lists, triangle tables and bathymetry values", "why_tests_cant": "The files keep six decimals, so the error depends on the size of the triangles and not on the code path; a mesh in metres shows nothing, a mesh in degrees with small triangles does.", "anchors": ["oceanmesh/mesh_generator.py:write_to_fort14", "oceanmesh/mesh_generator.py:write_to_t3s"]}
{"id": "C141", "title": "Independence of the numbering", "statement": "Two meshes that are the same drawing (same points, same triangles of points) but differ in the numbering of the vertices, the order of the triangles, their first corners or repeated entries give the same result, vertex for vertex and row for row, in fix_mesh, delete_boundary_faces, delete_faces_connected_to_one_face, make_mesh_boundaries_traversable and mesh_clean; boundary edges and delete_exterior_faces correspond point for point.", "quantifier": "all meshes, all renumberings, all byte orders of numpy, all random numbers of the first pass, all rounding rules (fix_mesh)", "why_tests_cant": "There are n! numberings of n vertices, and the code sorts by bytes, takes first occurrences and minima; a test compares two of them.", "anchors": ["oceanmesh/fix_mesh.py:fix_mesh", "oceanmesh/fix_mesh.py:unique_rows", "oceanmesh/clean.py:delete_boundary_faces", "oceanmesh/clean.py:delete_faces_connected_to_one_face", "oceanmesh/clean.py:delete_exterior_faces", "oceanmesh/clean.py:make_mesh_boundaries_traversable", "oceanmesh/clean.py:mesh_clean"]}
{"id": "C142", "title": "Cleaning commutes with moving the mesh", "statement": "If one mesh is the image of another under a shift, turn, mirror image or change of unit (with any numbering), then the results of fix_mesh, delete_boundary_faces, delete_faces_connected_to_one_face, delete_exterior_faces, make_mesh_boundaries_traversable and laplacian2 are images of each other under the same map.", "quantifier": "all meshes, all renumberings, all affine maps that multiply lengths by a factor, all random numbers", "why_tests_cant": "The test meshes lie in one place and in one unit; a dependence on the coordinates, such as a tolerance or a quality with the dimension of a length, shows only when the same mesh is run in another unit.", "anchors": ["oceanmesh/fix_mesh.py:fix_mesh", "oceanmesh/fix_mesh.py:simp_qual", "oceanmesh/fix_mesh.py:simp_vol", "oceanmesh/clean.py:delete_boundary_faces", "oceanmesh/clean.py:delete_faces_connected_to_one_face", "oceanmesh/clean.py:delete_exterior_faces", "oceanmesh/clean.py:make_mesh_boundaries_traversable", "oceanmesh/clean.py:laplacian2"]}
{"id": "C143", "title": "Comparing limited sizes", "statement": "The limited field is at least every graded field below the given one, and after convergence at most the given values continued along paths of steps; multiplying sizes and spacing by a factor multiplies the result by it; limiting a larger, mirrored or transposed field gives the larger, mirrored or transposed result.", "quantifier": "all fields, spacings and gradations that are not negative, all numbers of iterations, all orders of the lattice", "why_tests_cant": "The result depends on the order in which nodes are visited; tests check one field in one orientation and one unit.", "anchors": ["oceanmesh/cpp/HamiltonJacobi.cpp:c_gradient_limit", "oceanmesh/edgefx.py:enforce_mesh_gradation"]}
{"id": "C144", "title": "Version files keep the version", "statement": "The keywords that git archive puts into _version.py are read as they are; what write_to_version_file writes is read back by versions_from_file unchanged, and the installed module hands the same text to json.loads.", "quantifier": "all keywords, all dictionaries of versions, all files with the three assignments", "why_tests_cant": "The build writes the file and the installed package reads it in another way; characters that one of them treats specially (quotation marks, apostrophes, backslashes) do not occur in the tags that were tried.", "anchors": ["oceanmesh/_version.py:git_get_keywords", "versioneer.py:git_get_keywords", "versioneer.py:write_to_version_file", "versioneer.py:versions_from_file"]}
{"id": "C145", "title": "Inside tests, distances and sizes do not depend on the place and the unit", "statement": "Moving the origin and changing the unit of all coordinates changes nothing but the unit: the compiled inside test answers the same if its tolerance is given in the new unit; the test in Python answers the same in another place, but not in another unit, because it compares the tolerance with products of two lengths; the distance to a box and the signed distance to a shoreline are measured in the new unit; the sizes of a grid at the moved points are the same, inside and outside the nodes, except when the interpolant is built for a box from -180 to 180.", "quantifier": "all points, segments, shorelines, grids, tolerances, shifts and positive factors", "why_tests_cant": "Regions are tried in one place and one unit; a hidden constant with a unit shows only in another one.", "anchors": ["oceanmesh/geometry/point_in_polygon.py:inpoly2", "oceanmesh/geometry/point_in_polygon_.pyx:_inpoly", "oceanmesh/signed_distance_function.py:signed_distance_function", "oceanmesh/grid.py:Grid.eval", "oceanmesh/grid.py:Grid.interpolate_to"]}
{"id": "C146", "title": "The mesh generator does the same in other places and units", "statement": "If the domain, the sizes, the fixed points and the tolerances are given with another origin and in another unit, then the start points, every iteration and the returned mesh are the same, seen with the other origin and in the other unit: the same triangulations, the same triangles removed, the same forces and projections, and the generator raises in one case exactly if it does in the other.", "quantifier": "all domains, sizing functions, start points, fixed points, options and numbers of iterations, all shifts and positive factors", "why_tests_cant": "One cannot try all places and units, and a constant that has a unit without saying so shows only in some of them.", "anchors": ["oceanmesh/mesh_generator.py:generate_mesh", "oceanmesh/mesh_generator.py:_compute_forces", "oceanmesh/mesh_generator.py:_project_points_back", "oceanmesh/mesh_generator.py:_generate_initial_points", "oceanmesh/mesh_generator.py:_remove_triangles_outside"]}
{"id": "C147", "title": "versioneer.py setup marks and includes the version file and settles", "statement": "After 'versioneer.py setup' the version file is marked for keyword substitution in .gitattributes, versioneer.py and the version file are included by MANIFEST.in, and __init__.py contains the lines that set __version__; nothing that stood in these files is lost; once this is so, running it again changes nothing. The root is the first of the current directory and the directory of the script that contains setup.py or versioneer.py; a command succeeds exactly if the first of its names that exists starts and ends with code zero; setup.py is accepted exactly if it contains the import and the two calls and none of the old settings.", "quantifier": "all texts of .gitattributes, MANIFEST.in, __init__.py, setup.py and setup.cfg, all names of the version file, all outcomes of starting commands", "why_tests_cant": "The setup is run by hand once in a while, on files that are nearly always complete and end with a newline; what it does with other files is not tried.", "anchors": ["versioneer.py:do_setup", "versioneer.py:do_vcs_install", "versioneer.py:get_root", "versioneer.py:get_config_from_root", "versioneer.py:run_command", "versioneer.py:scan_setup_py", "oceanmesh/_version.py:run_command"]}
{"id": "C148", "title": "The sizing functions do the same in other places and units", "statement": "If the box, the minimum and maximum sizes and the points or distances are given with another origin and in another unit of length, the sizing functions from distances, feature widths, wave lengths, bounds by elevation and limited gradation give the same sizes in the other unit at the moved points, and they raise in one case exactly if they do in the other.", "quantifier": "all boxes, sizes, rates, points, elevations, bounds and gradations, all shifts and positive factors", "why_tests_cant": "Sizes are tried in degrees or in metres for one region; a constant that has a unit without saying so shows only when both are compared.", "anchors": ["oceanmesh/edgefx.py:distance_sizing_from_point_function", "oceanmesh/edgefx.py:feature_sizing_function", "oceanmesh/edgefx.py:wavelength_sizing_function", "oceanmesh/edgefx.py:enforce_mesh_size_bounds_elevation", "oceanmesh/edgefx.py:enforce_mesh_gradation", "oceanmesh/grid.py:Grid.eval"]}
{"id": "C149", "title": "Moving shoreline and sizes moves the mesh", "statement": "If a shoreline with its bounding box, the points from which sizes grow, the bounds of the grid and the fixed points are all moved by the same vector, then the signed distance function, the sizing function (distances, then limited gradation), the start points and all iterations of the mesh generator are those of the old place, moved; a call raises in one place exactly if it does in the other.", "quantifier": "all shorelines of closed rings, all grids, options, random numbers, numbers of iterations and vectors", "why_tests_cant": "A mesh of one region is never compared with the mesh of the same region somewhere else; a dependence on the origin in any of the steps from the shoreline to the mesh would go unnoticed.", "anchors": ["oceanmesh/signed_distance_function.py:signed_distance_function", "oceanmesh/edgefx.py:distance_sizing_from_point_function", "oceanmesh/edgefx.py:enforce_mesh_gradation", "oceanmesh/grid.py:Grid.build_interpolant", "oceanmesh/mesh_generator.py:generate_mesh"]}
{"id": "C150", "title": "The version when building is the version at run time", "statement": "versioneer.get_versions, used when the package is built, takes the version from the keywords in the version file, else from the text of a written version file, else from git, else from the name of a directory, in this order. In a checkout or an archive made by git it gives the version the module gives at run time, and in a source distribution the version written when that was made, whatever git and the directories say. It is stated exactly when it raises.", "quantifier": "all configurations of versioneer for git, all texts of the version file, all answers of git and all paths", "why_tests_cant": "The package is built by the maintainers from a tagged checkout; archives, source distributions inside other repositories and trees without git are not tried.", "anchors": ["versioneer.py:get_versions", "versioneer.py:git_versions_from_keywords", "versioneer.py:versions_from_file", "versioneer.py:versions_from_parentdir", "versioneer.py:write_to_version_file", "oceanmesh/_version.py:get_versions", "setup.cfg"]}
{"id": "C151", "title": "The shoreline does the same in other places", "statement": "If the region and the geometries of the file are moved by the same vector, then the box and the polygons of a Shoreline (islands, mainland, bounding polygon) are moved by it, and so is the mesh made from them; a call raises in one place exactly if it does in the other. Smoothing, inserting points, clipping with its margin and classification do the same in another unit of length.", "quantifier": "all files, regions, options, vectors and positive factors, all geometry libraries that do not depend on the place", "why_tests_cant": "A shoreline is never read twice in two places; a dependence on the origin or on the unit shows only as a few points more or less.", "anchors": ["oceanmesh/geodata.py:Shoreline.__init__", "oceanmesh/geodata.py:Shoreline._read", "oceanmesh/geodata.py:remove_dup", "oceanmesh/geodata.py:_smooth_shoreline", "oceanmesh/geodata.py:_densify", "oceanmesh/geodata.py:_clip_polys", "oceanmesh/geodata.py:_classify_shoreline", "oceanmesh/geodata.py:_is_path_ccw", "oceanmesh/geodata.py:_poly_length"]}
{"id": "C152", "title": "Several sizing grids do the same in another place", "statement": "If several sizing grids are moved by the same vector, then the minimum of them, the grids blended into each other and the size that multiscale_sizing_function gives at a moved point are those of the old place, moved; a call raises in one place exactly if it does in the other.", "quantifier": "all lists of grids, values, blend widths, numbers of neighbours, points and vectors", "why_tests_cant": "Nested grids are tried for one region; a dependence of the padding, of the tree of known nodes or of the interpolants on the origin shows only when the same grids are used elsewhere.", "anchors": ["oceanmesh/edgefx.py:multiscale_sizing_function", "oceanmesh/grid.py:Grid.blend_into", "oceanmesh/grid.py:Grid.interpolate_to", "oceanmesh/grid.py:Grid.build_interpolant", "oceanmesh/grid.py:compute_minimum"]}
{"id": "C153", "title": "Nested domains and their meshes do the same in another place", "statement": "If nested domains, the sizes and the fixed points are moved by the same vector, then union, intersection, difference, the nests and the meshes of the nests are those of the old place, moved, and so are all iterations of the final run started from the moved points; a call raises in one place exactly if it does in the other.", "quantifier": "all lists of domains, sizes, options, random numbers, numbers of iterations and vectors", "why_tests_cant": "A multiscale mesh takes long and is made for one region; it is never compared with that of the same region elsewhere.", "anchors": ["oceanmesh/signed_distance_function.py:Union", "oceanmesh/signed_distance_function.py:Difference", "oceanmesh/signed_distance_function.py:multiscale_signed_distance_function", "oceanmesh/mesh_generator.py:generate_multiscale_mesh", "oceanmesh/edgefx.py:multiscale_sizing_function"]}
{"id": "C154", "title": "The build commands write the version where it belongs and nowhere else", "statement": "Writing the version file succeeds exactly if there is one under that name; then this name reads as the written version and every other name reads as before, also if it was a hard link to the same file. So a source distribution contains the version, a package built from it gets it whatever git says, and the sources are not changed. Building Python files replaces the configured version file among the built files, building extensions in place replaces nothing, and freezing leaves the template.", "quantifier": "all disks with any hard links, configurations, versions and wrapped commands that return or raise", "why_tests_cant": "Building is not tested; hard links are made only on some file systems, and a changed source file shows only later.", "anchors": ["versioneer.py:get_cmdclass", "versioneer.py:write_to_version_file", "setup.py"]}
{"id": "C155", "title": "fix_mesh keeps tetrahedral meshes and orients them", "statement": "For points with three coordinates, fix_mesh returns exactly if there are points and the numbers of the corners are valid. The result has different points of the input, no two tetrahedra with the same corners, no negative volume and on request no unused point; every tetrahedron of the input is represented with corners moved by at most the tolerance times the extent, and if different points are further apart than that, corners and volumes up to the sign are the same.", "quantifier": "all points in space, tables, tolerances, roundings and byte orders", "why_tests_cant": "The function offers three dimensions, but the tests have only triangles.", "anchors": ["oceanmesh/fix_mesh.py:fix_mesh", "oceanmesh/fix_mesh.py:simp_vol", "oceanmesh/fix_mesh.py:unique_rows"]}
{"id": "C156", "title": "The sizing from the slope of the bottom is the same in other places and units", "statement": "If the grid of the elevations is moved, the sizing function from the slope of the bottom is the moved sizing function, also coarsened, and it raises in one place exactly if it does in the other. If lengths, elevations, cutoff, wave lengths and limits are given in another unit, slopes are the same and the sizes are the same sizes in that unit.", "quantifier": "all elevation grids not around the globe, slope parameters, cutoffs, limits, coarsening factors, shifts and units", "why_tests_cant": "The tests use one grid of elevations in one place and unit.", "anchors": ["oceanmesh/edgefx.py:bathymetric_gradient_sizing_function", "oceanmesh/filterfx.py:filt2"]}
{"id": "C157", "title": "The quality of a tetrahedron measures the tetrahedron", "statement": "For points with three coordinates, simp_qual does not depend on the place, the size, the orientation or the order of the corners, is at most one, and is zero for tetrahedra without volume.", "quantifier": "all tetrahedra in space", "why_tests_cant": "The documentation offers simplices of any dimension, but the tests have only triangles.", "anchors": ["oceanmesh/fix_mesh.py:simp_qual"]}
{"id": "C158", "title": "fix_mesh of its own result, for tetrahedra", "statement": "Calling fix_mesh on the mesh of tetrahedra it returned gives the same mesh again.", "quantifier": "all points in space, tables, tolerances, roundings and byte orders", "why_tests_cant": "The tests call fix_mesh once, and only for triangles.", "anchors": ["oceanmesh/fix_mesh.py:fix_mesh", "oceanmesh/fix_mesh.py:unique_rows"]}
{"id": "C159", "title": "Plots show what they are given", "statement": "The plot of a shoreline draws its mainland, inner polygons and outline where there are any, names each line in the legend, hatches the box, sets the limits of the axes that are given, and writes the file that is named. The plot of a grid colours the chosen nodes at their places by their values, edges are drawn between the points they name, and the plot of a domain shows the samples near its border.", "quantifier": "all shorelines, boxes, grids, coarsening factors, edges, samples and arguments", "why_tests_cant": "Pictures are not looked at in the tests.", "anchors": ["oceanmesh/geodata.py:Shoreline.plot", "oceanmesh/geodata.py:DEM.plot", "oceanmesh/grid.py:Grid.plot", "oceanmesh/edges.py:draw_edges", "oceanmesh/signed_distance_function.py:_plot"]}
{"id": "C160", "title": "Setting up versioneer is complete, repeatable and harmless when it fails", "statement": "`versioneer.py setup` succeeds exactly if setup.cfg configures git and a version file. Then the version file is the template, it is included in source distributions and marked for substitution, and a second run changes nothing. If it does not succeed, no file but setup.cfg is changed, and that one only by adding the sample once at its end.", "quantifier": "all texts of the files of a project, all parsers of setup.cfg, all templates and texts of setup.py", "why_tests_cant": "The package has no tests for versioneer.py, and the outcome depends on arbitrary contents of five files.", "anchors": ["versioneer.py:do_setup", "versioneer.py:do_vcs_install", "versioneer.py:get_config_from_root", "versioneer.py:scan_setup_py"]}
