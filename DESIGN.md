# Design

Formal model of `oceanmesh` (source in `/repo`, read as text) in Lean 4 (`/verif/lean`), and machine-checked proofs of the
properties in `properties.jsonl`.

## Layout

* `lean/Verif/Model/*.lean` — executable, total models, one file per source file, one definition per source function; each
  definition cites file and lines and states its simplifications.
* `lean/Verif/Spec/*.lean` — small specification vocabulary (what "edge of a triangle", "connected", "inside" mean), written
  without use of the model.
* `lean/Verif/Lemmas/*.lean` — helper lemmas.
* `lean/Verif/Props/*.lean` — the property theorems (`C01_...`), each with a concrete `example` that meets its hypotheses.
* `MANIFEST.json` — property → theorem names. `seeded/LOG.jsonl` — mutation tests.

## Trusted base

* The Lean 4.33.0 kernel and the axioms `propext`, `Classical.choice`, `Quot.sound` (no others; no `native_decide`).
* The correspondence between the model definitions and the cited source lines (checked by reading only).
* Numbers. Floating point numbers are modelled by an arbitrary linearly ordered field `K` (ℚ in the witnesses, ℝ where
  square roots or trigonometry are needed), NaN/inf by an explicit extra value where the code tests for them. Rounding errors are
  modelled only in the gradient limiter, the inside tests, `simp_vol`, the nodes of `Grid`, the merging in `fix_mesh`, `laplacian2`, the initial points, the mesh generator, sizes, the cleaning passes, `simp_qual`, the interpolation of `idw.py` and the shorelines (C113-C115,
  C117-C122, C124-C126, C128-C133, there with correctly rounded squares: any rounding rule that keeps the order, doubles without overflow or subnormal numbers, exact `fmod` in floor division, with or
  without fused multiply-add, no extended precision); overflow is not modelled; −0.0 only where the code compares bytes (`fix_mesh`). Integers are unbounded except in C135.
* numpy: indexing, `unique`, `sort`, `argsort`, `diff`, `concatenate`, `delete`, `where` are modelled by list functions with the
  documented behaviour. Where the order is unspecified (byte-wise order of `unique` on void/`S` views, unstable `argsort`) the
  theorem quantifies over every admissible order.
* External engines are parameters of the model and theorems hold for every value of these parameters (or under a stated contract):
  CGAL triangulation, scipy KDTree and RegularGridInterpolator, gaussian_filter, skfmm, shapely, geopandas, rasterio, xarray,
  pyproj, the random generator.

* `scipy.sparse.coo_matrix`: the product with a dense array adds the entries in their order, repeated entries one after the other (matters in C119 only).
* Grids: scipy's `RegularGridInterpolator` is modelled by the bilinear (nearest) formula on the cell found by bisection, linear
  extrapolation from the border cell, the fill value outside; ties between two nearest nodes go to the lower index; a NaN among
  the four corners gives NaN. Masked arrays are treated as plain arrays. The transformation between coordinate systems, the KD-tree query
  and the power function of the inverse-distance weights are parameters.
* Sizing functions: distances from fast marching, medial points, KD-tree answers, square roots and cosines of the depth formulas are
  parameters. Signed distance functions: the answers of `inpoly2` and the KD-tree distances are parameters (`inpoly2` itself is modelled
  separately for C49–C53; the compiled kernel is read from the Cython source, the generated `point_in_polygon_.c` in the tree carries the same source lines). `inpoly2`: the polygon tests of `shapely` and `matplotlib` are parameters (a function of the rings that can raise).
* Files are lists of characters. `%f` is rounding to six decimals, half to even, of the exact value; NaN, infinities and −0.0 are not written by
  the model. The readers are specifications of ours (`Spec/Fort14.lean`), oceanmesh has none.
* CGAL: insertion, removal and moving of vertices are parameters with the contract `CgalLaws` (`Spec/Triangulation.lean`), vertex and face handles are
  numbers, undefined behaviour (an index out of range, a stale handle) is `none`. Only C99 also assumes that the faces form a complex (`Simplicial`).
* Multiscale validation: pyproj is the parameter `CrsEngine` (parsing and comparison of CRS), the stereographic projection a parameter. Options are the
  list of their names; a keyword given twice in a call raises (rule of Python).
* Mesh generator: domain and sizing functions are functions from arrays to arrays that can raise; signed distances are never NaN, sizes can be. The
  square root, `eps`, the random numbers, `dptol` and similar constants are parameters. `_project_points_back` catches `ValueError` only; the model
  takes every exception of the distance function for one. `genLoop` returns a record of the iterations besides the mesh (not in the code).
  Options of a call are a list of names with values (numbers, flags, `None`, points, boxes, anything else); a value of another type than the code expects
  is taken to raise. `np.random.seed` takes integers from 0 to 2³² − 1 and `None` only. An infinite `min_edge_length` is not modelled.
* Shoreline: shapely is the record `ShapeLib` (polygon from points, validity, repair by a small buffer, containment, overlap, intersection, difference, parts,
  outer ring, area), used without laws unless a theorem names them (`RingsClosed`, `BoxLaws`). What geopandas reads, transforms and explodes is a list of
  geometries with bounds, type and coordinates. `contains_points` of matplotlib is a parameter.
* Rossby filter: the Gaussian smoothing is a parameter. `np.concatenate(..., dtype=int)` of float arrays raises `TypeError` (numpy casts "same_kind"
  only). Elevations have no NaN.
* Distance sizing: what geopandas reads of a file (type of each feature, length, point at a distance) is a parameter. The KD-tree returns a nearest node
  (`Spec.IsNearestTree`, no rule for ties). skfmm interpolates the zero set of a field of −1 and 1 between the nodes, so its distance is never zero
  at a node (`Spec.NeverZero`, used by `C92_minimum_not_reached` only).
* Feature sizing: `medial_axis` reads its argument as truth values (NaN is true) and is a parameter otherwise. skfmm raises for a field without change of
  sign (`C111_no_shoreline` only) and its answers at neighbouring nodes differ at most by the spacing (`C111_rate_partial` only).
* DEM: what `rasterio` and `xarray` return for a file is a parameter (whole band, band of a window with its mask, axes and array). A masked array is its data
  and its mask; numpy's `==` is false under the mask, so that `a[a == nodata] = nan` does not change masked cells, and the interpolators use the data
  under the mask. Division by zero for a raster of one row is an exception. Rotated transforms are not treated by the code (nor the model).

* Versions: the output of `git describe`, the number of commits and the decoration of an exported commit are parameters. Digits are 0 to 9 and white space is
  space, tab and line ends (python's `\d` and `strip` also know those of other scripts).

## Not modelled

What matplotlib draws (the calls are in C159), logging, file reading (rasterio/geopandas/xarray I/O), MPI-free performance code, the actual Delaunay
algorithm, fast marching, medial axis computation, Gaussian smoothing.

## Plan per property

| id | modelled | proof |
|----|----------|-------|
| C01 | `get_edges`, `unique_row_view`, `get_boundary_edges` over lists of triples; unique-row order = any permutation | count lemmas on lists |
| C02 | same | parity: sum of edge multiplicities at a vertex is even; invariant mod 2 |
| C03 | `get_winded_boundary_edges` with fuel = number of edges (proved sufficient) | walk invariant, parity argument for closing |
| C04 | `get_poly_edges` over `List (Option point)` | induction over segments; negation witness for open/singly closed rings |
| C05–C09 | `fix_mesh` as composition of unique/gather/renumber/flip; unique order a parameter | gather lemmas; C09 negation witness for `delete_unused=True` |
| C10 | `simp_vol` | ring identities |
| C11 | `simp_qual` over ℝ with `Real.sqrt` | algebra; if the code contradicts scale-freeness prove the negation |
| C12, C13 | `_arg_sortrows`, `_face_to_face`, `_vertex_to_face`; sort order a parameter | sorted-block lemmas; C13 negation witness for unused vertices |
| C14 | `_depth_first_search` worklist with fuel | reachability invariant |
| C15 | `delete_exterior_faces` with an oracle for the start faces | component partition argument |
| C16–C19, C21 | clean.py passes | composition, measure = number of faces |
| C20 | `laplacian2` with max_iter fold | invariants over iterations |
| C22 | the stop scan as a fold over an explicit state | negation witnesses; `C22_exact` says for every sequence of deep nodes whether the scan raises and which sections it returns, in terms of the runs the sequence is cut into |
| C23–C27 | `c_gradient_limit` as nested folds over a value/active-set state | invariants; potential argument for convergence |
| C28 | flatten/reshape around the limiter | index algebra |
| C29 | band fold | induction over bounds |
| C30 | `Grid.__init__`, `create_vectors` | floor lemmas |
| C31, C32 | bilinear interpolant on a lattice, `build_interpolant` incl. row swap | convexity; history induction, negation witness |
| C33, C34, C36, C37 | grid combination logic with interpolation as parameter | pointwise folds; for C37 one blend after the other over lists of any length |
| C35 | `Invdisttree.__call__` | weighted-average lemma |
| C38, C39 | sizing formulas after distances/depths are given | monotone min/max lemmas |
| C40 | `_earth_gradient` | case split interior/border |
| C41 | `filt2` with smoother as parameter | pointwise algebra; negation witness for band-stop |
| C42, C44 | `region.py` logic | order lemmas, witness for global boxes |
| C43 | trigonometric formulas over ℝ | Mathlib trigonometry |
| C45–C48 | SDF combinators, `create_bbox` | lattice lemmas |
| C49–C53 | both point-in-polygon kernels, wrapper, ring recovery | permutation invariance, parity |
| C54–C63 | geodata list functions | list induction |
| C64, C65 | writer as token list + state effect on caller arrays, a reader | round trip; negation witness for repeated export |
| C66, C67 | validation logic on records of metadata | case analysis |
| C68–C73 | the generator loop with engine parameters | induction over iterations |
| C74, C75 | `unique_edges`; vertex numbering of the CGAL wrapper as a finite map | sortedness; history induction |
| C83, C84 | the generator loop; derivatives of the projection | index lemmas; calculus |
| C76–C78 | DEM orientation, heuristics, circle | index algebra, trigonometry |
| C85, C86 | subset of NetCDF files, box of a DEM | ranges of monotone axes, min and max; `C85_nodes_any` gives every node for axes of either direction (values mirrored) |
| C88–C90 | the class `Shoreline`, shapely as the record `ShapeLib` | every step keeps rings closed; composition |
| C87 | multiscale meshes | value of a union and of differences below a tolerance, then C68 |
| C91 | `rossby_radius_filter`, blocks and levels as loops | induction over blocks, clamped difference quotients |
| C92, C93 | marking of grid nodes, masks, `get_border` | row-major index lemma, nearest node on two axes |
| C94 | the generator loop of C68 | every step shown total under the laws of CGAL; induction over iterations |
| C95 | the kernels of C49–C51 | per edge: ray counts at both ends of a step against the vertices swept; even degrees; induction over the path |
| C96 | the cleaning functions of C16–C19 | `fix_mesh` on rows of a good mesh is a relabelling; invariants of the passes |
| C97 | the sequence of the README | composition; removing ears never raises a boundary degree; counterexample for the third step |
| C98 | `compute_minimum` and `enforce_mesh_gradation` composed | theorems of C23, C28, C31 and C34; counterexample beyond the last node |
| C99 | `generate_mesh` and two cleaning steps composed | tables of a complex are conforming; theorems of C68, C75 and C97 |
| C100 | arguments and options of `generate_mesh` | lookup of options; theorems of C67, C68, C71 and C73 |
| C101 | the inside test for all triangulated regions | parity of symmetric edge counts, centroids, straight paths (C95); fans for convex rings; C01 for meshes |
| C102 | from the polygon arrays of a shoreline to the sign of the distance | C04 (edges), C53 (methods), C101 (regions), C47 (signs), C90 (files) |
| C103 | generated meshes lie in the sea | C102 with C68, C99 and C100 |
| C104 | gradation with the correction at the north pole | C23, C24 (limiter), C31 (interpolation) |
| C105 | every message of the multiscale validation, exactly | model of C66 |
| C106 | circles of `create_circle`, and as polygons | C101 (convex rings) |
| C107 | lengths of polygons | — |
| C108 | all sizing functions on boxes from -180 to 180 | `rowAfter` (the exchange of the outer meridians) relates each result to the statement for regional boxes |
| C109 | `Region.total_bounds`, `transform_to` | extreme values of folds; convex combinations stay between bounds |
| C110 | `_version.py`: reading `git describe`, PEP 440 versions, decorations | splitting at the last hyphen and the first plus sign; sorted lists |
| C111 | `feature_sizing_function` with the widths: inside nodes, medial nodes, marked nodes, fine lattice | exact result of `interpolate_to` (C33); medial axis, KD-tree and skfmm as parameters |
| C112 | `Invdisttree` objects: `__init__`, calls, statistics of weights | invariant over histories of calls |
| C113 | the gradient limiter with every operation rounded, rounding to doubles | the loop for an abstract step and tolerance; sum of the ranks of the values |
| C114 | the compiled inside test with every operation rounded | products of rounding factors (`Fac`); parameter of the projection by monotonicity |
| C115 | `simp_vol` and the orientation step of `fix_mesh` with every operation rounded | rounding factors of C114 |
| C116 | `_clip_polys_2` (not called by the package): exact description, then points, box, order, closing | inside test of the box right away from its border |
| C117 | floor division, node counts and coordinates of `Grid` with every operation rounded | `fmod` is exact (libm) |
| C118 | merging of vertices in `fix_mesh` with every operation rounded | merging lemmas of C05–C09 for any key |
| C119 | `laplacian2` with every sum and quotient of coordinates rounded | error of a running sum; induction over the steps |
| C120 | `fix_mesh` with merging and orientation rounded | the facts of C05–C09 for any key; C115 and C118 |
| C121 | `fix_mesh` of its own result | sorted lists of different keys are left alone by `unique`; rows of the result, sorted, are the rows before orientation |
| C122 | the Python inside test with every operation rounded, and both kernels | rounding factors of C114; distance by way of cross and scalar product; even degrees for the box test |
| C123 | `reproject_to` with the transformation as parameter | values and bounds from the interpolant (C31), equal systems from C33 |
| C124 | lattice and selection of the initial points with every operation rounded | error of the quotient times the step; monotone rounding for the order and the selection |
| C125 | the loop of `generate_mesh` with every operation on coordinates, lengths and sizes rounded; entries of the sparse matrix added in their order; sum of squares of `einsum` a parameter that is zero only for zeros | a distance is computed as zero only for equal points; rounded numbers plus zero stay the same; error of running sums; C120 for the last step |
| C126 | `signed_distance_function` of a shoreline with the inside tests of `inpoly2` rounded (fused multiply-add or not), passed to the rounded `generate_mesh`; the KD-tree a parameter that returns a distance to a vertex up to a relative error | C114 and C122 for each ring; no edge is crossed between the computed and the true centroid (C95); C120 and C125 for the loop and the last step |
| C127 | `tools/verify_manylinux_wheels.py` with strings as lists of characters; output of auditwheel and names in the archive are parameters | the regular expression finds every occurrence, since a match contains no second `G`; the loop keeps whether one wheel is bad |
| C128 | the sizes at a node from distance, depth, slope and feature width, their limits, and the evaluation of a grid between its nodes, every operation rounded | scipy's `evaluate_linear_2d`: interval by binary search, weights `(x - x_i) / (x_{i+1} - x_i)`, four products from left to right, no fused operations; single-node axes and NaN left out; `cos` in metres per degree is not rounded (the scale is a parameter) |
| C129 | the distance function of a rectangle, the projection of points beyond it, the mesh of it, and the loop of `create_circle`, every operation rounded | `cos` and `sin` are parameters with an error bound; the loop is cut off after `n` rounds (it ends after 63, `C129_angles`); the step and the limit are the doubles `0.1` and `2 * math.pi`, written as fractions |
| C130 | the cleaning passes and `mesh_clean` with rounded areas, quotients, merging and smoothing | `np.sum` is a parameter: any order and grouping of rounded additions (`SumsUp`); quality values and lengths are parameters, rounded or not; the numbers found by `_closest_node` are a parameter; tables and searches work on integers and are those of C12 to C18 |
| C131 | `simp_qual` with every operation rounded, and the decisions of `delete_boundary_faces` by it | over the reals, the root is the rounded exact root; infinite values are written as NaN (they occur only for a zero length, and then the quotient is 0/0, `qualOfLengthsFl_zero`); exact values are those of C11 |
| C132 | `Invdisttree.__call__` and the filling of marked nodes in `blend_into` with every operation rounded (`Model/IdwFl.lean`) | `np.sum` and `np.dot` may add in any order and grouping, products may be fused; the power has one relative rounding error; the distances of the tree are inputs and taken as they are; without multipliers the product with one is left in (it does not change a rounded number) |
| C133 | `_chaikins_corner_cutting`, `_smooth_shoreline`, `_densify`, `_create_ranges`, `_poly_area` with every operation rounded (`Model/ShoreFl.lean`) | `np.dot` may add in any order and grouping, products may be fused; the one subtracted after `np.ceil` is exact; the mask of points inside the box is given |
| C134 | objects `Grid` with their setters, `transform_to`, writes into `values`, `build_interpolant`, `flip`; arrays are cells of a heap and may be shared (`Model/GridObj.lean`) | transformed boxes are a parameter; `values` assigned with a wrong number of dimensions raise before and are not modelled; the interpolator is the bilinear one of C20/C55 on the lattice with the array that it refers to |
| C135 | the gradient limiter, `unique_edges`, the numbers of inserted points and the places in the tables of the triangulation with 32-bit `int` (`Model/MachineInt.lean`) | overflow of a signed operation, access outside of an array and exceptions are `none`; conversions wrap around; `size_t` is unbounded; assertions are not compiled; equality with the unbounded models |
| C136 | the other styles of versions and the choice of the branch (`Model/VersionStyles.lean`) | texts as lists of characters; the answers of git are parameters; `int` accepts digits only; the order of PEP 440 is written down in `Props/VersionStyles.lean` (no epochs) |
| C137 | attributes of `Shoreline` (`Model/ShoreAttr.lean`) | numbers of a linearly ordered field or NaN; only the setters, not the reading of files; a write that raises leaves the object as it was |
| C138 | `get_polygon_coordinates`, `warp_coordinates`, `get_crs_string`, `_generate_samples`, `_sparse` and the matrix of `laplacian2` (`Model/Helpers.lean`) | the file readers, the transformation and the random numbers (in [0, 1)) are parameters |
| C139 | `setup.py` (`Model/SetupPy.lean`) | environment, importable modules and directories are parameters; paths are joined with `/`; options of the compiler left out; `cythonize` is a parameter that keeps the names |
| C140 | the readers of C64 and C82 for the files of `write_to_fort14` and `write_to_t3s` (`Model/Export.lean`, no new definitions) | coordinates are written with six decimals, rounded to nearest; "clearly" in the statements means by more than this rounding can change |
| C141 | `fix_mesh` and the cleaning passes (`Model/FixMesh.lean`, `Model/FixMeshFl.lean`, `Model/Clean.lean`, `Model/Smooth.lean`, no new definitions) | as in C05, C17-C21 and C120; the cleaning passes in exact arithmetic, because `simp_qual` in doubles depends on the order of the corners; `pfix` is the same for both meshes |
| C142 | `fix_mesh`, the cleaning passes and `laplacian2` (`Model/FixMesh.lean`, `Model/Clean.lean`, `Model/Smooth.lean`, no new definitions) | exact arithmetic, where the sums do not depend on the order; `laplacian2` without `pfix`; the length of an edge is any symmetric function that the map multiplies by a factor; meshes as in C97 |
| C143 | the gradient limiter (`Model/GradLimit.lean`, no new definitions) | exact arithmetic; sizes not negative; the comparison needs a converged first run |
| C144 | `git_get_keywords`, `write_to_version_file`, `versions_from_file` and the written module (`Model/VersionFile.lean`) | texts as lists of characters, the regular expressions as first and last occurrences; `json.loads` not modelled, `json.dumps` for printable ASCII; numerical escapes in Python literals left out |
| C145 | inside tests, box distance, `signed_distance_function`, `Grid.eval`, `Grid.interpolate_to` in other places and units (`Props/MovingSea.lean`) | exact arithmetic; the tolerance is scaled with the unit (in the code it is a constant); the tree is a parameter measuring in the new unit |
| C146 | `generate_mesh` in other places and units (`Props/MovingGen.lean`) | exact arithmetic, plane coordinates; CGAL commutes with shifts and changes of unit (contract); `deps` and the machine precision are scaled with the unit (constants in the code) |
| C147 | `versioneer.py setup` (`Model/Install.lean`, `Spec/Text.lean`, `Props/Install.lean`) | texts as lists of characters with newline as only end of line; a missing file is an empty text; git's patterns for several names, adding the files to git and printing are left out; false for files without a final newline and for names that continue that of the version file |
| C148 | sizing functions in other places and units (`Props/MovingSizes.lean`) | exact arithmetic; boxes not taken for the globe, no stereographic correction; the distance solver, nearest nodes, medial points and distances are parameters measuring in the new unit; the sizing from wave lengths in projected coordinates; false for points beyond the nodes, for a failing solver and for depths below one |
| C149 | from shoreline and sizes to the mesh in other places (`Props/SeaMoved.lean`) | combines C145, C146 and C148: exact arithmetic, plane coordinates, compiled inside test, grids that extrapolate, CGAL commutes with shifts (contract), tree and solver measure distances independently of the place |
| C150 | version when building (`Model/BuildVersion.lean`, `Props/BuildVersion.lean`) | `get_versions` of `versioneer.py` for git, the version only; `json.loads` and the answers of git are parameters; uses C110, C144 and C147; `versions_from_parentdir`, `git_get_keywords`, `git_versions_from_keywords`, `git_pieces_from_vcs`, `plus_or_dot`, `pep440_split_post` and the `render` functions of `versioneer.py` have the same syntax tree as those of `oceanmesh/_version.py` (compared by a script that parses both files), so the models of the latter are used |
| C151 | the shoreline in other places and units (`Props/ShoreMoved.lean`, `Props/FileMoved.lean`) | exact arithmetic; shapely and `contains_points` are parameters that do not depend on the place (`SameShapes`); with C149 from the file to the mesh |
| C152 | several sizing grids in another place (`Props/BlendMoved.lean`) | exact arithmetic; the tree query is a parameter that does not depend on the place; one coordinate system |
| C153 | nested domains and their meshes in another place (`Props/MultiMoved.lean`) | exact arithmetic, plane coordinates; the triangulation is a parameter that does not depend on the place (`SameTools`) |
| C154 | the build commands of versioneer (`Model/BuildCommands.lean`, `Props/BuildCommands.lean`) | the commands of setuptools are parameters; a name is missing or stands for a file, permissions and directories are left out |
| C155 | `fix_mesh` and `simp_vol` for tetrahedra (`Model/FixMesh3D.lean`, `Props/FixMesh3D.lean`) | exact arithmetic; rows of `t` are lists of four numbers; byte orders and rounding are parameters as for triangles |
| C156 | `bathymetric_gradient_sizing_function` in other places and units (`Props/SlopeMoved.lean`) | filter and metres per degree are parameters; another unit only where cut elevations are at most minus one in both units |
| C157 | `simp_qual` for tetrahedra (`Model/TetQual.lean`, `Props/TetQual.lean`) | over the reals with exact roots |
| C158 | repeated `fix_mesh` for tetrahedra (`Model/FixMesh3D.lean`, `Props/FixMesh3DAgain.lean`, no new definitions) | as in C155 |
| C159 | `Shoreline.plot`, `Grid.plot`, `DEM.plot`, `draw_edges`, `_plot` (`Model/Plots.lean`, `Props/Plots.lean`) | a plot is the list of calls into matplotlib; handles of lines are their numbers; coarsening factors not negative |
| C160 | all of `versioneer.py setup` (`Model/Setup.lean`, `Props/Setup.lean`) | the five files are different texts in directories that exist and can be written; `configparser`, the filled template and the module name are parameters; `git add` left out; uses C147 |

## Disagreements between code and property (each proved)

* **C04** `get_poly_edges` drops the last segment of a feature that is not closed twice (`C04_last_segment_missing`).
* **C05** `fix_mesh` keeps two vertices on the same lattice point if one is rounded to −0.0 and the other to 0.0
  (`C05_signed_zero_duplicates`), because rows are compared as bytes.
* **C08** with `ptol=0` all vertices are merged into one (`C08_zero_tolerance_merges_all`); the property asks for positive tolerances.
* **C09** with `delete_unused=True` the third returned value is the flattened connectivity, not the vertex map
  (`C09_map_wrong_delete_unused`).
* **C11** `simp_qual` omits a square root: quality is proportional to the size of the triangle (`C11_quality_scales_linearly`),
  `s/√3` for an equilateral triangle of side `s` (`C11_equilateral_quality`) and can exceed 1 (`C11_quality_above_one`).
  `C11_exact` gives the value for every triple of points: NaN if two coincide, otherwise `64 A³/(s² a b c)` = `4 r²/R`.
* **C23** for fields with a negative minimum the tolerance is negative and values are raised (`C23_negative_field_raised`); the
  property is stated for non-negative sizes.
* **C24** the limiter compares each node with its (i−1, j+1) neighbour but never with (i+1, j−1) (entry 8 of the neighbour list repeats
  entry 5), so after convergence the limit can be violated on that diagonal (`C24_antidiagonal_violated`).
* **C25** for the same reason a converged field can change when it is limited again (`C25_converged_not_fixed`).
* **C12** `_face_to_face` pairs only consecutive rows of equal edges: of three triangles on one edge the first and the last are not
  neighbours (`C12_third_neighbour_missing`).
* **C13** `_vertex_to_face` counts only the vertices that occur: after an unused vertex all blocks are shifted
  (`C13_unused_vertex_shifts`).
* **C17** with `min_disconnected_area=1` (the documented maximum) every mesh on which the loop is entered raises
  (`C17_threshold_one_raises`).
* **C18** a mesh of two triangles is deleted completely (`C18_two_triangles_erased`), so `mesh_clean` raises on it
  (`C21_two_triangles_raise`). Of three triangles on one edge two are deleted although each has two neighbours
  (`C18_three_on_edge_deleted`); two equal triangles are kept, although each is connected to the other only (`C18_repeated_kept`). The result is otherwise
  right for any number of triangles on an edge (`C18_no_single_neighbour`).
* **C20** an empty list `pfix` raises (`C20_empty_pfix_raises`), because the concatenation with an empty float array turns the index array
  into floats.

* **C20** a side of a degenerate triangle `(u, v, u)` counts twice, so its end is not taken for a boundary vertex and moves
  (`C20_degenerate_boundary_moves`); `C20_laplacian_steps_all` says exactly which vertices stay in such a mesh.
* **C22** a run of two deep boundary nodes followed by another one, or two deep nodes far apart, make
  `identify_ocean_boundary_sections` raise, because `None` is used as an index (`C22_short_run_raises`, `C22_far_pair_raises`);
  a single pair of close deep nodes is lost (`C22_close_pair_lost`); a short run after a complete one reuses the old end, so the
  section ends before it starts (`C22_end_before_start`).
* **C42** a global outer box contains every box, even one that sticks out (`C42_global_contains_everything`); the property excludes it.
* **C44** the constructor accepts tuples with more than four values and boxes without width (`C44_bad_tuples_accepted`).
* **C54** of two NaN rows in a row one is lost, an array of NaN rows only raises, a polygon without points is lost
  (`C54_double_nan`, `C54_only_nan`, `C54_empty_list`, `C54_empty_polygon`).
* **C57** `_nth_simplify` drops the last point of a feature that is not closed (`C57_last_point_dropped`).
* **C58** in stereographic coordinates a feature that overlaps the domain replaces it and no mainland is ever recorded
  (`C58_stereo_no_mainland`).
  A feature of exactly the minimum area is kept (`C58_equal_area_kept`).
* **C56** a list without points raises (`C56_empty_raises`).
* **C60** `_pick_netcdf_open_target` computes the overlap with the region but both branches do the same: the largest subdataset is picked
  (`C60_overlap_ignored`, `C60_region_irrelevant`).
* **C61** `_is_path_ccw` looks at the first corner that is not flat; if that is a reflex corner the answer is wrong (`C61_reflex_start`).
  Rings with corner triangles below 5·10⁻⁹ raise (`C61_tiny_raises`).
* **C62** on an (N, 2) array `np.diff` subtracts x from y: points on the diagonal are removed (`C62_points_lost`), duplicates stay
  (`C62_duplicates_kept`) and the last point is added again (`C62_ring_end_doubled`). A ring whose end is doubled is closed twice, so
  it does not suffer from C04 (`C90_rings_closed_partial`, `C90_edges_partial`).
* **C77** boxes with latitudes between 90 and 180 degrees are taken as geographic (`C77_latitude_not_checked`).
* **C78** a step of zero raises, negative steps give no point (`C78_zero_step_raises`, `C78_negative_step_empty`).
* **C30** the shape of an array of values is not compared with the box and the spacings, so that nodes can lie outside the box
  (`C30_array_shape_not_checked`).
* **C31** next to a NaN the value at a node is NaN (`C31_nan_neighbour`), because the bilinear formula multiplies it by zero.
* **C32** for boxes from -180 to 180 each call of `build_interpolant` exchanges first and last row of the values again: the first two
  calls give different grids unless the rows agree (`C32_not_idempotent`, `C32_idempotent_iff`, `C32_period_two`).
* **C33** source values -999 are taken as missing (`C33_fill_value_lost`), a source that extrapolates overwrites nodes outside of it
  (`C33_extrapolate_overwrites`), touching boxes raise (`C33_touching_boxes_raise`). `C33_exact` says what comes out in all cases.
* **C34** for a base grid around the globe the first and last row of the result are exchanged (`C34_globe_rows_exchanged`); NaN hides smaller values
  (`C34_nan_hides`). `C34_exact` and `C34_fails_iff` describe the result and the failures for all grids.
* **C35** points closer than the absolute threshold 1e-10 count as coincident, so scaling all distances can change the result
  (`C35_threshold`); with fewer data points than neighbours the call raises (`C35_too_few_points`).
* **C36** `hmin` of the blended grid is the minimum of the filled padding cells, not of the grid (`C36_hmin_wrong`); a fine grid that
  extrapolates overwrites the coarse values (`C36_extrapolate_overwrites`). What happens for all grids is stated by `C36_exact`.
* **C37** after blending the sizing can exceed the given coarse sizing function (`C37_exceeds_coarse`); with a global grid every second
  evaluation gives another value (`C37_not_repeatable`).

* **C28**, **C29**, **C38** for boxes around the globe the result has first and last row exchanged (`C28_globe_rows_exchanged`,
  `C29_globe_fails`, `C38_globe_rows_exchanged`).
* **C29** an invalid band in the list raises after earlier bands have changed the grid (`C29_invalid_modifies`); an elevation equal to the
  lower end of a band does not belong to it (`C29_lower_end`).
* **C38** a maximum below the minimum or a negative rate give values below the minimum (`C38_maximum_below_minimum`, `C38_negative_rate`);
  beyond the last node linear extrapolation goes below the minimum inside the box (`C38_extrapolated_below`).
* **C39** land heights count as depths (`C39_land_counts_as_depth`); the mean latitude in degrees is given to a cosine in radians
  (`C39_latitude_in_radians`); the maximum wins over the minimum, and `hmin` is taken before the cap (`C39_maximum_below_minimum`).
* **C41** the band-stop filter subtracts the high-pass part instead of adding it, short waves come out negated
  (`C41_bandstop_negates_short_waves`, `C41_bandstop_wrong_sign`). Band filters ignore the argument `truncate` (`C41_bandpass`).
* **C79** the end of a resampled line is missing (`C79_end_missing`), short lines raise (`C79_short_line_raises`).
* **C80** with a coarsening factor the result does not extrapolate: 999999 between last node and border (`C80_coarse_no_extrapolation`).
* **C81** without a minimum edge length sizes down to zero occur while `h0` is recorded as `hmin` (`C81_zero_size`).
* **C45** NaN of one member hides all others (`C45_nan_hides`); intersection and difference never claim a point wrongly (`C45_intersection`,
  `C45_difference`, without conditions).
* **C46** nests of inverted functions overlap (`C46_inverted_overlap`); domains without covering, e.g. of `create_bbox`, are accepted but
  the evaluation raises (`C46_no_covering_raises`).
* **C47** with `invert` every point with a non-finite coordinate is inside (`C47_nonfinite_inside_inverted`).
* **C50** with two vertices (edges there and back) the Python kernel never reports the boundary, the compiled one does (`C50_two_vertices`).
* **C51** the Python kernel skips edges that are horizontal up to the tolerance, so that points far from the boundary but with a y coordinate in
  the range of such an edge get the wrong answer (`C51_flat_edge_skipped`); exactly if the ray meets an odd number of them (`C51_flat_edges`,
  `C101_python_right_iff`).
* **C52** without the compiled kernel and with `shapely`, the method changes at 1000 points, and with it the answer on the boundary
  (`C52_batch_size_matters`; the engine of the witness excludes the boundary as `shapely`'s `contains` is documented to do); with an empty node
  array the edges are not checked (`C52_no_nodes`).
* **C64** numbers are rounded to six decimals, so that different vertices can become equal (`C64_rounding`); a title with a line break makes
  the file unreadable (`C64_title_newline`).
* **C65** `write_to_fort14` adds one to the indices and changes the sign of the depths in place: the second export of the same mesh writes indices
  that are too large by one (`C65_second_export`, `C65_history`).
* **C66** the validation itself accepts empty lists (`C66_empty_validated`; the caller checks them). Regional domains may have different CRS although the
  documentation asks for a common one (`C66_regional_crs_differ`). Containment in a stereographic domain is checked for the four corners of the box
  only (`C66_corners_only`), and the corners are taken as degrees whatever the CRS of the region is.
* **C67** `generate_multiscale_mesh` passes its options on together with keywords of the same name: the documented `stereo` and `min_edge_length` raise
  (`C67_multiscale_rejected`). `max_iter` is documented as a float, but floats raise (`C67_max_iter`).
* **C69** each fixed point is placed at the nearest vertex after the earlier ones have been placed: two fixed points closer to each other than to the
  vertices get the same vertex, and the first one is lost, even if their nearest vertices were different (`C69_fixed_point_lost`). This cannot happen for
  generated start points, which contain the fixed points (`C69_generated_start`). Fixed points outside are projected (`C69_outside_moved`).
* **C71** the lattice of the initial points ends up to one step behind the bounding box (`C71_outside_box`).
* **C72** where the gradient of the distance function is flatter than `deps`, a point outside does not reach the boundary (`C72_flat_gradient`).
* **C84** the factor for the initial points grows towards the north pole, the scale of the projection decreases (`C84_initial_factor`).
* **C76** the value of a raster cell is stored at the south-west corner of the cell, half a cell away from its middle (`C76_half_cell`); for a raster around the
  globe the first and the last column change places (`C76_global_columns`); bands read through a window keep the no-data value as data under the mask, and the
  interpolant uses it (`C76_window_keeps_nodata`).
* **C85** a NetCDF file with latitudes from south to north (the usual order) that is read through xarray gives a DEM upside down
  (`C85_south_up_flipped`): the constructor reverses the array whatever the direction of the axis is.
* **C86** only two corners of the region are transformed into the coordinates of the raster; the box around them need not hold the region
  (`C86_region_cut_off`).
* **C87** the smallest minimum size is sought starting from 9999, so with larger sizes (metres) the tolerance comes from 9999
  (`C87_minimum_capped`). A triangle whose centroid is on the border of an inner domain belongs to no domain and is removed
  (`C87_border_not_owned`).
* **C88** a point with equal coordinates is lost when a file is read; if a ring starts there it is stored open (`C88_diagonal_point_lost`, from C62), and one
  side of the island is missing for the distance function (`C90_diagonal_start_opened`).
* **C89** an invalid polygon that is repaired into several parts inside the box comes out once per part, unrepaired (`C89_repaired_repeated`).
* **C90** the constructor passes `h0 / 2` to the classification, so islands of a quarter of the documented minimum area are kept (`C90_small_island_kept`).
* **C91** `rossby_radius_filter` assigns `tmpz[:, n2s:n2e]` to the variable that holds the filtered field, so the filter has no effect: the result is the
  slope of the depths as given (`C91_value`, `C91_filter_ignored`, `C91_rossby_is_off`), with one-sided differences at the borders between blocks
  (`C91_block_border`). Grids that reach around the globe raise as soon as a node has a level above 0 (`C91_global_rejected`), projected grids with spacings
  above about ten metres and grids with one column left over always (`C91_projected_rejected`, `C91_single_column`). `type_of_filter="bandstop"` is
  silently off (`C91_bandstop_off`). `C91_exact` says for every grid when a slope is returned, `C91_global_choice` what happens around the globe. The two `assert ValueError(...)` that were to forbid the Rossby filters never fail.
* **C92** the size at a marked node is above the minimum, which is reached nowhere (`C92_minimum_not_reached`); points outside the box mark nodes at its border
  (`C92_outside_point_marked`); one line of at most half the minimum edge length makes `distance_sizing_from_line_function` raise (`C92_short_line`).
* **C94** `generate_mesh` raises if no triangle is kept in an iteration before the last, with a message about the sizing function (`C94_nothing_left`).
* **C98** `compute_minimum` makes its result extrapolate linearly, so between the last node and the end of the box sizes can be negative even if all
  given sizes are positive (`C98_negative_in_box`).
* **C97** `delete_boundary_faces`, the third step of the sequence in the README, can destroy the traversable boundaries made by the first one
  (`C97_boundary_faces_break`, a thin triangle that joins two parts).
* **C104** with `stereo=True` the sizes at the north pole can grow (`C104_pole_grows`: 10 everywhere at the pole becomes 37). The stereographic lattice
  (`np.arange(-1, 1, d)`) has in general no node at the pole, it is filled from the given sizes and not from the limited ones, and overwrites the limited sizes.
* **C107** `_poly_length` decides with `np.isclose` whether the polygon is closed; its relative tolerance is 10⁻⁵ of the coordinates, so for a square of
  50 m at longitude 100, latitude 60 only three sides are added (`C107_small`). The function is not called in the package.
* **C108** `compute_minimum` followed by `enforce_mesh_gradation` on a grid around the globe limits the gradation of the field with exchanged outer
  meridians and exchanges them back, so neighbouring sizes differ by 27 where 9 is allowed (`C108_gradation_lost`).
* **C109** `Region.transform_to` transforms two corners of a tuple, so for transformers that are not separately increasing in both axes the new box misses points
  (`C109_corners_only`); tuples of five values pass through (`C109_five_values`).
* **C110** an exported commit with the tags `v0.10`, `v0.9` and `v0.1` gets the version 0.1, the oldest (`C110_older_tag`: names are sorted by characters); without tags a branch `v2-work` becomes the version `2-work` (`C110_branch_taken`); see also `C110_collision`, `C110_empty_tag`. The file names the word `None` as prefix of source directories (`C110_directory_ignored`).
* **C112** an `Invdisttree` that keeps statistics raises when a later call asks for another number of neighbours than the first one, and then counts a
  point whose weights were not added (`C112_other_number`; the array of weights is made once, the counter grows before the addition).
* **C111** a shoreline without points raises (`C111_no_shoreline`; `distance_sizing_function` catches the same error); nodes where the signed distance
  is NaN count as inside (`C111_region`).
* **C102** the distance is that to the nearest vertex of the polygons, not to the shoreline: a point on an edge gets minus the distance to the nearest end
  point (`C102_on_shoreline`; −1/2 in the middle of a side of length 1), so the zero set of the function are the vertices and the function is not
  continuous across edges.
* **C100** `_check_bbox` says that the dimension must be 2 but accepts every tuple with a positive even number of entries: from six numbers third
  coordinates are mixed into the points (`C100_box_of_six`), from two numbers all points lie on a line (`C100_box_of_two`). The documentation says that
  `bbox` is required if `edge_length` is a function and that `seed` can be a `float`; in fact `bbox` is required if the domain is a function, and such a seed
  raises (`C100_raises`).
* **C93** `get_border` repeats cells for arrays of a single row or column (`C93_single_row`).
* **C114** the tolerance 5e-14 of the inside test does not grow with the coordinates: in doubles a point exactly on a long edge is called outside
  (`C114_on_edge_missed`) and a point farther than the tolerance from all edges gets the wrong side (`C114_wrong_side`).
* **C115** in doubles the orientation step of `fix_mesh` flips some slivers whenever it is repeated (`C115_sliver_flips`) and makes a counterclockwise one
  clockwise (`C115_made_clockwise`).
* **C116** `_clip_polys_2` loses a polygon around the box and raises (`C116_enclosing_lost`), and drops points beyond a side of the box without putting
  points on that side (`C116_side_lost`).
* **C117** in doubles the last node of a grid can lie beyond the box (`C117_overshoot`) or a whole spacing before its end (`C117_short`); nodes coincide
  for tiny spacings (`C117_stalls`).
* **C118** in doubles two vertices that are farther apart than the tolerance can be merged (`C118_merged_beyond_tolerance`).
* **C119** in doubles smoothing moves a vertex out of the box of all vertices, by one unit in the last place (`C119_leaves_box`); the bound for any
  number of iterations is `C119_box`.
* **C120** in doubles the result of `fix_mesh` for a sliver can be clockwise (`C120_clockwise_result`).
* **C121** `fix_mesh` called on its own result can merge further vertices, because the lattice is derived from the vertices that are left
  (`C121_not_idempotent`, with the default tolerance); with `delete_unused=True` rows can change places, because they are sorted by bytes before the
  vertices are renumbered (`C121_rows_reordered`, from 257 vertices on).
* **C122** along an edge the Python inside test compares `ftol` with a product of two lengths: points in line with a short edge are reported on the
  boundary up to `ftol` divided by the length beyond its end (`C122_overshoot`), which can be any number of tolerances, and the compiled kernel
  says "outside" (`C122_short_edge`). For a point exactly on a long edge it is the other way round (`C122_on_edge_differ`).
* **C123** `reproject_to` gives the size 999999 to target nodes outside of the source (`C123_outside_poisoned`), and the result interpolates
  between them and their neighbours (`C123_blend_with_fill`), where `interpolate_to` keeps the sizes of the target. Between equal systems the
  nearest size is taken and `hmin` of the target is kept, between different ones the bilinear size and `hmin` of the source
  (`C123_method_differs`, `C123_attributes`). A target around the globe has its first and last row exchanged (`C123_globe_rows`).
* **C124** in doubles the lattice of initial points can have a row a whole step behind the box (`C124_extra_row`, from 1 to 1.2 in steps of 0.1)
  or end before the end of the box (`C124_end_missed`, from −0.9 to 0.1 in steps of 0.5).
* **C125** in doubles the forces on the vertices of a triangle do not add up to zero (`C125_unbalanced`; the sum is a few rounding errors).
* **C127** `libgmpxx` alone counts as `libgmp` (`C127_other_library`); a third number of a version is ignored (`C127_third_number`).
* **C128** the size between nodes can be below all sizes at the nodes by rounding (`C128_below`), so also below the recorded minimum, by at most the factor
  `1 - 2^-50` (`C128_doubles`).
* **C129** a vertex beyond a corner of a rectangle is projected to one of the two lines only and stays outside (`C129_corner_outside`); the comment in the source says
  so ("incorrect distance to the four corners").
* **C130** a component with more than the given fraction of the area is deleted if the computed fraction is rounded to the threshold (`C130_threshold_rounds`).
* **C131** a sliver with three different corners gets the quality NaN, because the computed difference of its sides is negative; NaN is not below the limit, and the triangle stays at the boundary (`C131_sliver_kept`).
* **C132** two neighbours with the value 1 at the distances 1 and 9 give 1 - 2^-53: constant data are not reproduced, the value leaves the range of the data (`C132_constant_partial`), and a grid of sizes 1 announces a smallest size below 1 (`C132_hmin_below_data`).
* **C133** in doubles the points that `_densify` inserts in a line of 49 degrees with a spacing of 1 leave a last gap larger than 1 (`C133_gap_exceeded`); `_poly_area` of a square of side 2^-23 degrees is exact at the origin and 0 at (180, 45), and too large by more than a quarter for the side 5 / 2^21 (`C133_area_cancels`).
* **C134** assigning `values` does not rebuild `eval`, which goes on returning the old ones (`C134_stale`); `Grid.transform_to` (inherited from `Region`) moves the box and leaves `x0y0`, so that all nodes may be outside of it (`C134_transform_leaves_nodes`); `grid.values = None` sets the attribute before it raises (`C134_none_lost`); around the globe `build_interpolant` swaps the outer meridians in place, so that a second call, or a call on another grid with the same array, undoes it and changes the interpolator of the first (`C134_built_twice`, `C134_shared`).
* **C135** `c_gradient_limit` multiplies the dimensions as `int`: a field of 46341 by 46341 nodes overflows (`C135_limiter_overflow`), and a single row of 2^31 - 1 nodes at `jpos + 1` (`C135_limiter_line`); `unique_edges` turns vertex 2^31 into -2^31 and merges vertices that differ by 2^32 (`C135_edges_wrap`), and fails for 2^30 edges (`C135_many_edges`); `get_finite_cells` overflows with 715827883 faces, `get_finite_face_neighbors` with one more (`C135_faces`, `C135_face_neighbours`).
* **C136** The style pep440-branch gives commits after a tag on other branches than master a version older than the tag (`C136_branch_older`; the docstring says older than the master branch); pep440-post, pep440-post-branch and pep440-old append a second `.postN` to a tag that is a post-release, which is no version (`C136_post_invalid`); pep440-pre drops the mark of changes and raises for `1.0.post1.dev2` (`C136_pre_faults`). The package uses the style pep440, which is right.
* **C137** The setters of `Shoreline` accept NaN for `h0`, `refinements` and `minimum_area_mult`, and zero for `refinements` although the message asks for > 0 (`C137_nan_accepted`).
* **C138** `get_polygon_coordinates` takes the outline of the first feature only and loses holes; file endings in capitals are rejected (`C138_holes_lost`).
* **C139** `get_requirements` tears a requirement with blanks (`rasterio >= 1.3`) into three, and would raise for a pinned `fiona` on old Python versions (`C139_torn`); with `setup.cfg` as it is neither happens.
* **C140** a counter-clockwise triangle whose sides are near 1e-6 can be clockwise in the files of `write_to_fort14` and `write_to_t3s` (`C140_turned`); larger triangles keep their orientation.
* **C141** of two points closer than the tolerance `fix_mesh` keeps the one that comes first, so the result depends on the numbering (`C141_order_matters`); `delete_interior_faces` called on its own deletes the first of two equal triangles (`C141_interior_depends`).
* **C142** `simp_qual` has the dimension of a length (C11), so `delete_boundary_faces` depends on the unit: every triangle at the boundary with edges not longer than the limit is deleted, whatever its shape (`C142_small_triangles_deleted`; with the default 0.01 of `mesh_clean` and degrees these are edges of about a kilometre); of two equal triangles meeting in a point `make_mesh_boundaries_traversable` keeps the one on the right, also after a half turn (`C142_traversable_depends`).
* **C143** The limited sizes depend on the orientation of the grid: a small size at one corner of a 3×3 grid is continued along the diagonal to the opposite corner only if that diagonal has direction (1,1) (`C143_mirror_matters`; same cause as C24).
* **C144** The version is written as JSON into a Python literal that is not raw: a quotation mark in a tag (allowed by git) gives `\"`, which the installed module reads as a quotation mark, so `json.loads` gets a text that is not JSON; three apostrophes end the literal (`C144_import_differs`). `versions_from_file` reads both files correctly.
* **C145** The inside test in Python compares its tolerance, a length, with the product of two lengths (`dot >= -ftol`, `dot <= len2 + ftol`): how far beyond the end of an edge a point still counts as on the boundary depends on the unit (`C145_python_unit`); the compiled test does not. A grid over -180 to 180 exchanges its first and last rows, the same grid elsewhere does not (`C145_globe_place`).
* **C146** `_project_points_back` compares the squared gradient, which has no unit, with `deps`, which is also the length of the step: where the distance function is flat, the projection depends on the unit (`C146_projection_unit`).
* **C147** `versioneer.py setup` appends to `.gitattributes` and `MANIFEST.in` without looking for a final newline: the new line is glued to the last one, so the version file is not marked and `versioneer.py` not included (`C147_glued`, `C147_manifest_glued`). A file whose name continues that of the version file passes for it (`C147_longer_name`). The lines in `__init__.py` are recognised only with the original quotation marks, so they are written again after formatting (`C147_init_again`; `oceanmesh/__init__.py:125-131` has them twice).
* **C148** Three constants of the sizing functions have a unit without saying so: the size 999999 beyond the nodes of a grid (`C148_fill`), the distance 999 put in place of a failing solver (`C148_no_distance`: in metres less than one step of a grid of kilometres) and the least depth 1 (`C148_shallow`).
* **C150** `setup.cfg` has no `parentdir_prefix`, and the template wrote the word `None` into `_version.py`: without keywords and git, in a directory whose name begins with `None`, the version at run time is the rest of that name and at build time `0+unknown` (`C150_none_prefix`). An empty `git_date` raises `IndexError` before git is asked (`C150_empty_date`).
* **C151** Which points of a file are kept depends on the place: points with equal coordinates are lost (`C151_read_place`, from C62). `np.isclose` measures from the origin: whether `_clip_polys_2` closes a line (`C151_close_place`) and whether `_poly_length` adds the last side (`C151_length_place`) depends on the place, in projected coordinates by tens of metres. The margin 0.1 of the clipping (`C151_margin_unit`) and the tolerance 1e-8 of `_is_path_ccw`, an area (`C151_orientation_unit`), are the same in every unit: the orientation of a polygon with sides of less than 0.0001 degrees (ten metres) is not found and the call raises.
* **C152** A grid from −180 to 180 has its first and last column exchanged when the interpolant is built, the same grid moved by a degree has not, so the size at the ends changes (`C152_globe_place`). The size of `multiscale_sizing_function` is at most 999999 in any unit (`C152_sizes_unit`).
* **C154** Freezing (`cmd_build_exe`, `cmd_py2exe`) writes the template over the version file, whatever stood there (`C154_exe_not_restored`), and if the command raises the version file of the sources keeps the fixed version (`C154_exe_raises`). `cmd_build_ext` raises when no Python files were built before (`C154_ext_alone`); `setup.py:178-193` replaces that class.
* **C156** The slope sizing takes depths below one as one, whatever the unit, so shallow water gets other sizes in another unit (`C156_shallow`, `C156_shallow_sizing`).
* **C157** For tetrahedra `simp_qual` is the quality of the first face: flat tetrahedra are as good as others (`C157_flat`), the order of the corners matters (`C157_order`), and as for triangles the value is proportional to the size (`C157_scales`).
* **C158** As for triangles (C121), a second `fix_mesh` can merge points and drop tetrahedra the first kept, because deleting an unused point makes the lattice finer (`C158_not_idempotent`).
* **C159** `Shoreline.plot` ignores `xlim` and `ylim` and never sets the limits it computes, because `ax` is no longer `None` there (`C159_limits_ignored`), and writes its file after showing the window (`C159_shown_before_saved`). `DEM.plot` writes its file before labels and colour bar are drawn (`C159_dem_saved_early`) and raises if a colour map is given (`C159_dem_cmap`).
* **C160** `do_setup` opens the version file for writing before it looks up the template: with another `VCS` than git in `setup.cfg` it ends with a `KeyError` and leaves the version file empty (`C160_other_vcs`). If `MANIFEST.in` does not end with a newline, the second run changes it again (`C160_second_run`).
* **C45** the coordinate systems of the members of a union, intersection or difference are not compared; the result carries the first one
  (`C45_systems_not_compared`).

## Changes to property statements

C17 and C19 were reworded after the proofs were attempted: both now mention the merging tolerance of `fix_mesh`, and C17 speaks
about results without degenerate triangles. This makes them weaker than the first wording ("keeps the corner coordinates",
"every boundary vertex of the result"), which is false in general because `fix_mesh` merges close vertices.
In the theorems a mesh is a vertex list and an index table; hypotheses such as valid indices, three different corners per triangle or
no unused vertices are written out in each theorem and repeated in the manifest notes.

## Mutation tests

`seeded/LOG.jsonl` has one line per attempt: the model (or specification) is edited in a scratch copy, the project is built, and the
declarations that no longer compile are recorded. Some proofs first establish a lemma that restates the definition step by step
(`fixMesh_stages`, `relax_toState`, `neighbours_eq`, `limitLoop_toState`, `relaxAll_toState`); when such a lemma fails, the theorems
after it are not built, so such a line alone does not show that a property statement rejects the edit. Lines with a `witness` field
are stronger: they contain a Lean statement about a concrete input that is checked for the edited definition and rejected for the
original one. Most of them are evaluations whose result contradicts the property, not the literally negated theorem. Lines of the
first two rounds have no witness. The `dfsLoop` line of the third round is an equivalent program: there the failure is an artefact of the
proof and not a detection. For `meshClean` only the shape lemma failed. In the fourth round (region, polygon helpers, boundary sections) the lines for
the polygon and region helpers have witnesses, those for the boundary sections not. One edit survived at first: `clumps` without the last
feature of an array without closing NaN row; `C54_unterminated` was added and now fails for it.
In the fifth round (grids, inverse-distance weights, blending, sizing functions, filters; 46 edits) two survived at first, both in the blending
(`blendCells`, `blendAll`); `C37_two_grids_partial` was added and now fails for them. The witness for `earthGradient` did not compile, so that
line has none.
In the sixth round (signed distances, point in polygon, rings; 45 edits) no edit survived. Two of them are equivalent programs (`ringNext` walking the
ring the other way, `reduceEvals` folding from the right), there the failure is an artefact of the proofs. 21 lines have a witness; four more
witnesses were tried and not accepted.
In the seventh round (mesh generator, stereographic factors; 51 edits) no edit survived. One of them is an equivalent program (`0 ≤ x` for `0 < x` in
`projectPointsBack`, moving points at distance zero by zero).
Rounds eight to thirty-nine (everything modelled later, among others rounded arithmetic, machine integers, files, versions, tetrahedra, plots) follow the same
scheme, mostly without witnesses; not every line of the last rounds could be run, the log has those that were. Lines whose note says that only some modules were
built come from the last rounds: the modules of the claim are built first and the whole project only if these accept the edit, so other failures are not listed. Edits that survived have a line with the note `SURVIVED`; where a theorem was added for one, `theorems_tightened` names it.
In round thirty-eight (plots) two edits survived at first (`gridPlot` with the colour bar, `levelPlot` with window and file); `C159_grid_bar` and `C159_level_output` were
added and now fail for them. In round thirty-nine (`versioneer.py setup`) none survived; five of its edits were stopped by the auxiliary lemma `doSetup_ok`, the one to
`sampleConfig` only by an example, because what `configparser` reads is a parameter.
Automatic rounds: single tokens of model definitions are changed at random (claim `token changed at random`). A line counts as caught when the project no
longer builds, and the lines whose note says so were stopped by auxiliary lemmas only: for these it is not known whether the property itself becomes false, so
they are weaker evidence than the others. The claim of such a line lists the properties whose theorems mention the definition or the failing lemma, found by a text
search. Survivors are listed as equivalent only with the reason in the note.
