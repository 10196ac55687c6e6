{"id": "C01", "title": "Bounding box overlap is the true overlap volume", "statement": "bounding_box_intersection(ndim, a, b) returns the product over the dimensions of the length of the intersection of the two closed intervals: it is symmetric, never negative, never more than either box's volume, and it is positive exactly when the interiors of the two boxes meet.", "quantifier": "all dimensions, all pairs of well-formed boxes", "why_tests_cant": "continuum of box pairs including shared faces and nested boxes", "anchors": ["include/nektar_interface/bounding_box_intersection.hpp:bounding_box_intersection"]}
{"id": "C02", "title": "Bounding box set query has no false negatives or positives", "statement": "After building a MeshHierarchyBoundingBoxIntersection from a list of boxes, intersects(query) is true exactly when at least one of the given boxes touches the query box; the union-box prefilter never discards a query that touches a stored box, and expanding boxes always yields the smallest box containing all of them.", "quantifier": "all lists of boxes, all query boxes, all dimensions", "why_tests_cant": "the prefilter interacts with every possible arrangement of boxes", "anchors": ["include/nektar_interface/bounding_box_intersection.hpp:MeshHierarchyBoundingBoxIntersection::intersects", "include/nektar_interface/bounding_box_intersection.hpp:expand_bounding_box"]}
{"id": "C03", "title": "Cell id translation is a bijection", "statement": "CellIDTranslation gives consecutive NESO cell indices to the local Nektar++ geometry ids: converting a local geometry id to a NESO cell and back with map_to_nektar returns the same id, converting each NESO cell index to nektar and back gives the same index, and lookups of every local id stay inside the allocated table whatever gaps the ids have.", "quantifier": "all finite sets of geometry ids with arbitrary gaps", "why_tests_cant": "unbounded id sets; gaps and offsets", "anchors": ["include/nektar_interface/cell_id_translation.hpp:CellIDTranslation::construct_maps", "include/nektar_interface/cell_id_translation.hpp:CellIDTranslation::execute"]}
{"id": "C04", "title": "NESO cell to Nektar++ expansion mapping is consistent", "statement": "NESOCellsToNektarExp::get_exp_id(cell) returns the index of the expansion built on exactly the geometry object held by that NESO cell, for every NESO cell, and is injective.", "quantifier": "all expansion lists and all NESO cells", "why_tests_cant": "all orderings of expansions vs geometry ids", "anchors": ["include/nektar_interface/utilities.hpp:NESOCellsToNektarExp"]}
{"id": "C05", "title": "ParameterStore behaves as a typed map with override", "statement": "A ParameterStore behaves as a finite map: contains/get reflect the last set for a key, get with default returns the default exactly when the key is absent, reading with the wrong type raises an error and never returns a value, and operations on one key never affect another.", "quantifier": "all sequences of set operations and queries", "why_tests_cant": "unbounded operation histories", "anchors": ["include/nektar_interface/parameter_store.hpp:ParameterStore"]}
{"id": "C06", "title": "Cartesian mesh lookup is in bounds, bijective and geometrically right", "statement": "On a DeviceCartesianMesh, get_cell_in_dimension returns an index within [0, count) and whose cell contains the point for each point of the domain; get_linear_cell_index is a bijection between in-range index tuples and [0, cell_count); the cell bounding boxes tile the domain without overlap.", "quantifier": "all mesh sizes, origins, widths and points", "why_tests_cant": "continuum of points and all grid sizes", "anchors": ["include/nektar_interface/utility_mesh_cartesian.hpp:DeviceCartesianMesh"]}
{"id": "C07", "title": "Collapsed coordinate maps are mutually inverse", "statement": "For tetrahedra, pyramids, prisms, hexahedra, triangles and quads, loc_collapsed_to_loc_coord undoes loc_coord_to_loc_collapsed at every reference point away from the collapsed vertex/edge, and loc_coord_to_loc_collapsed undoes loc_collapsed_to_loc_coord for every collapsed point away from the singular face; the run-time dispatch on shape type selects the map of that shape.", "quantifier": "all reference coordinates off the singular set, all six shapes", "why_tests_cant": "continuum of points", "anchors": ["include/nektar_interface/coordinate_mapping.hpp:GeometryInterface"]}
{"id": "C08", "title": "Collapsed coordinates characterise the reference element", "statement": "A reference point xi lies in the closed reference element (off the collapsed vertex) exactly when its collapsed coordinates eta all lie in [-1,1]; in particular the mapping's containment test on eta is neither too strict nor too lax.", "quantifier": "all reference points, all shapes", "why_tests_cant": "continuum of points", "anchors": ["include/nektar_interface/coordinate_mapping.hpp", "include/nektar_interface/particle_cell_mapping/map_particles_newton.hpp"]}
{"id": "C09", "title": "clamp_loc_coords clamps every coordinate", "statement": "After clamp_loc_coords every coordinate lies within [-1-tol, 1+tol], coordinates that were already inside are unchanged, and the return value is true exactly when some coordinate was altered.", "quantifier": "all coordinate tuples and tolerances", "why_tests_cant": "combinations of several coordinates out of range at once", "anchors": ["include/nektar_interface/coordinate_mapping.hpp:clamp_loc_coords"]}
{"id": "C10", "title": "Precomputed Jacobi coefficients give the Jacobi polynomials", "statement": "JacobiCoeffModBasis::host_evaluate(n, alpha, z) (and the device recurrence driven by the same coefficient tables) equals the Jacobi polynomial P_n^{(alpha,1)}(z) as defined by its explicit sum, and equals special_functions jacobi(n, z, alpha, 1), for all orders within the table; every table access is in bounds.", "quantifier": "all n <= max_n, 1 <= alpha <= max_alpha, all z", "why_tests_cant": "unbounded order; all arguments", "anchors": ["src/nektar_interface/expansion_looping/jacobi_coeff_mod_basis.cpp", "include/nektar_interface/expansion_looping/jacobi_coeff_mod_basis.hpp", "include/nektar_interface/special_functions.hpp:jacobi"]}
{"id": "C11", "title": "Device 1D modified basis kernels equal the reference basis", "statement": "BasisJacobi::mod_A, mod_B, mod_C and mod_PyrC write to slot k exactly the reference value eval_modA_i / eval_modB_ij / eval_modC_ijk / eval_modPyrC_ijk for the k-th mode in the documented ordering, for every number of modes and evaluation point.", "quantifier": "all numbers of modes and all evaluation points", "why_tests_cant": "unbounded polynomial order and continuum of points", "anchors": ["include/nektar_interface/basis_evaluation.hpp:BasisReference", "src/nektar_interface/basis_reference.cpp"]}
{"id": "C12", "title": "Basis kernels write each mode once and stay in bounds", "statement": "Evaluating nummodes modes writes exactly the documented total number of slots (n for A, n(n+1)/2 for B, n(n+1)(n+2)/6 for C, ... for PyrC), each once, and never past that count; get_total_num_modes gives those counts for each shape.", "quantifier": "all numbers of modes", "why_tests_cant": "unbounded polynomial order", "anchors": ["include/nektar_interface/basis_evaluation.hpp", "src/nektar_interface/basis_reference.cpp:get_total_num_modes"]}
{"id": "C13", "title": "Field evaluation kernels equal the reference expansion", "statement": "ExpansionLooping loop_evaluate for each shape returns sum over modes of dof[mode] times the reference basis function of that mode (including the top-vertex corrections) at the collapsed point, consuming exactly the element's dofs in Nektar++ mode order.", "quantifier": "all shapes, orders, dof vectors and points", "why_tests_cant": "unbounded polynomial order, all coefficient vectors", "anchors": ["include/nektar_interface/expansion_looping/", "src/nektar_interface/basis_reference.cpp:eval_modes"]}
{"id": "C14", "title": "Projection is the exact transpose of evaluation", "statement": "For each shape the contribution a particle of weight w adds to the dofs by loop_project, paired with any dof vector c, equals w times loop_evaluate(c) at the same point (so depositing then pairing conserves the integral), and contributions of several particles add up independent of processing order.", "quantifier": "all shapes, orders, weights, points, particle lists and orders", "why_tests_cant": "all orders and all schedules of atomic additions", "anchors": ["include/nektar_interface/expansion_looping/", "include/nektar_interface/function_basis_projection.hpp"]}
{"id": "C15", "title": "Barycentric interpolation is polynomial interpolation", "statement": "Bary preprocess_weights followed by compute_dir_* evaluates the unique tensor-product polynomial interpolating the nodal values: it reproduces nodal values exactly at nodes, weights sum to one, and any polynomial of degree below the number of nodes is reproduced exactly at every point.", "quantifier": "all node sets, nodal values and points", "why_tests_cant": "all orders, all polynomials", "anchors": ["include/nektar_interface/bary_interpolation/bary_evaluation.hpp"]}
{"id": "C16", "title": "Blocked and interlaced Bary evaluation equals the scalar evaluation", "statement": "The block versions of Bary evaluation, and the interlaced multi-function version, give for each particle lane and each function exactly the scalar single-function result.", "quantifier": "all block sizes, lanes, function counts", "why_tests_cant": "all block sizes and remainders", "anchors": ["include/nektar_interface/bary_interpolation/bary_evaluation.hpp", "include/nektar_interface/function_bary_evaluation.hpp"]}
{"id": "C17", "title": "SYCL launch size padding", "statement": "get_global_size(n, local) is the smallest multiple of local not below n, so every work item index < n is launched and fewer than local padding items exist; pad_to_vector_length is the smallest multiple of the vector length not below its argument.", "quantifier": "all sizes and local sizes", "why_tests_cant": "all sizes", "anchors": ["include/nektar_interface/utility_sycl.hpp:get_global_size", "include/nektar_interface/utility_sycl.hpp:pad_to_vector_length"]}
{"id": "C18", "title": "Packed 2D geometry round trip", "statement": "Unpacking a packed triangle or quadrilateral reproduces owning rank, local id, shape, vertices, edge ids, edge vertices and curves exactly, consuming exactly the bytes written, so any concatenation of packed geometries is recovered in order.", "quantifier": "all geometries and lists of geometries", "why_tests_cant": "all sizes of curves/ids", "anchors": ["include/nektar_interface/geometry_transport/packed_geom_2d.hpp", "include/nektar_interface/geometry_transport/packed_geoms_2d.hpp"]}
{"id": "C19", "title": "Unpacking rejects truncated buffers", "statement": "PackedGeoms2D never reads outside the buffer it was given: a truncated or malformed buffer is detected before an out-of-bounds read.", "quantifier": "all byte buffers", "why_tests_cant": "all truncation points", "anchors": ["include/nektar_interface/geometry_transport/packed_geoms_2d.hpp"]}
{"id": "C20", "title": "3D geometry deconstruct/reconstruct round trip", "statement": "Deconstructing local 3D geometry objects into the flat integer message and reconstructing on the receiver yields the same list of (rank, id, shape, faces) objects in order, with face lists of the right length per shape.", "quantifier": "all lists of hex/prism/pyramid/tet objects", "why_tests_cant": "all mixtures and lengths", "anchors": ["src/nektar_interface/geometry_transport/geometry_transport_3d.cpp:deconstruct_geoms_base_3d", "src/nektar_interface/geometry_transport/geometry_transport_3d.cpp:reconstruct_geoms_base_3d"]}
{"id": "C21", "title": "Remote geometry serialisation round trip", "statement": "RemoteGeom::deserialise(serialise(g)) restores rank, id, geometry type, vertices and edges, uses exactly get_num_bytes bytes, and serialise refuses a buffer that is too small.", "quantifier": "all remote geometries", "why_tests_cant": "all sizes", "anchors": ["include/nektar_interface/geometry_transport/remote_geom.hpp"]}
{"id": "C22", "title": "Geometry container classification is a partition", "statement": "GeometryContainer3D puts every 3D geometry in exactly one of the regular/deformed-linear/deformed-non-linear buckets for its shape; none is lost or duplicated and size() counts all of them.", "quantifier": "all geometry lists", "why_tests_cant": "all lists and flags", "anchors": ["include/nektar_interface/geometry_transport/geometry_container_3d.hpp"]}
{"id": "C23", "title": "Halo stencil covers exactly the required neighbours", "statement": "get_stencil/halo extension with width w visits for a cell exactly the mesh hierarchy cells whose index differs by at most w in each dimension, wrapped periodically when pbc is set and truncated to the domain when not; each linear id appears once. A negative width requests nothing from other ranks; a width above the number of cells in some dimension fails before anything is exchanged.", "quantifier": "all cell counts, dimensions, widths, both pbc settings", "why_tests_cant": "all widths, including widths larger than the domain", "anchors": ["src/nektar_interface/geometry_transport/halo_extension.cpp"]}
{"id": "C24", "title": "Cell claim weights keep the largest claim", "statement": "After any sequence of LocalClaim::claim calls the recorded weight of a cell is the largest weight claimed for it, the recorded cells are exactly those claimed with a positive weight (a claim without a positive weight has no effect), and neither depends on the order of the calls.", "quantifier": "all sequences of claims in all orders", "why_tests_cant": "all histories", "anchors": ["include/nektar_interface/particle_mesh_interface.hpp:LocalClaim"]}
{"id": "C25", "title": "Mesh tuple to mesh hierarchy tuple conversion is a bijection", "statement": "mesh_tuple_to_mh_tuple splits a fine cell tuple into coarse and fine parts by division with remainder: each part is in range and the pair determines the fine tuple uniquely.", "quantifier": "all tuples and subdivision orders", "why_tests_cant": "all sizes", "anchors": ["include/nektar_interface/particle_mesh_interface.hpp:mesh_tuple_to_mh_tuple"]}
{"id": "C26", "title": "Every mesh hierarchy cell an element touches is claimed", "statement": "bounding_box_claim claims, with a weight between 1 and 1000000, exactly the cells of the mesh hierarchy whose interior meets the interior of the element's bounding box; the weight is the overlap in millionths of a cell, and the cell-to-element map lists each element once for each of these cells.", "quantifier": "all boxes and Cartesian meshes", "why_tests_cant": "continuum of boxes vs cell boundaries", "anchors": ["include/nektar_interface/particle_mesh_interface.hpp:bounding_box_claim", "include/nektar_interface/particle_mesh_interface.hpp:bounding_box_map", "include/nektar_interface/particle_mesh_interface.hpp:overlap_1d"]}
{"id": "C27", "title": "Periodic boundary maps into the domain without changing the point modulo the period", "statement": "NektarCartesianPeriodic::execute leaves every particle in [origin, origin+extent) in each dimension, moves it by an integer multiple of the extent, and is idempotent.", "quantifier": "all positions, all domain extents and origins", "why_tests_cant": "continuum of positions; extents of any size", "anchors": ["src/nektar_interface/particle_boundary_conditions.cpp:NektarCartesianPeriodic::execute"]}
{"id": "C28", "title": "Periodic domain extents are the mesh bounding box", "statement": "The origin and extent used by the periodic boundary are the minimum coordinate and (maximum - minimum) over all vertices on all ranks, for any placement of the mesh in space.", "quantifier": "all vertex sets and decompositions", "why_tests_cant": "all placements, including entirely negative coordinates", "anchors": ["src/nektar_interface/particle_boundary_conditions.cpp:NektarCartesianPeriodic::NektarCartesianPeriodic"]}
{"id": "C29", "title": "Composite collection is idempotent and cumulative", "statement": "CompositeCollections::collect_cell/collect_geometry collects data for each mesh hierarchy cell at most once; requesting cells in any order or repeatedly leaves the same set of collected cells, and no previously collected cell is lost.", "quantifier": "all request histories", "why_tests_cant": "all histories", "anchors": ["src/nektar_interface/composite_interaction/composite_collections.cpp"]}
{"id": "C30", "title": "Line/plane intersection is exact", "statement": "LinePlaneIntersection::line_segment_intersection returns true exactly when the segment from p0 to p1 meets the plane, and then the returned point lies on both the segment and the plane; a segment lying in the plane is reported at its start point.", "quantifier": "all planes and segments", "why_tests_cant": "continuum including parallel and in-plane segments", "anchors": ["include/nektar_interface/composite_interaction/line_plane_intersection.hpp:line_segment_intersection"]}
{"id": "C31", "title": "point_near_to_geom never rejects a point of the geometry", "statement": "For any element with the given vertices, point_near_to_geom is true for every point of their convex hull.", "quantifier": "all vertex sets, all hull points", "why_tests_cant": "continuum", "anchors": ["include/nektar_interface/composite_interaction/line_plane_intersection.hpp:point_near_to_geom"]}
{"id": "C32", "title": "Trajectory intersection reports the nearest hit", "statement": "Among all composite elements tested for a particle's step, CompositeIntersection::execute reports a hit exactly when some element is hit, and the reported element is one at the minimum distance from the start of the step, independent of processing the quads and triangles in separate passes.", "quantifier": "all lists of candidate elements and distances", "why_tests_cant": "all orderings of candidates", "anchors": ["src/nektar_interface/composite_interaction/composite_intersection.cpp:find_intersections_3d", "src/nektar_interface/composite_interaction/composite_intersection.cpp:find_intersections_2d"]}
{"id": "C33", "title": "The cells examined along a step were collected", "statement": "Each mesh hierarchy cell inspected while searching for a particle's intersections was collected beforehand by find_cells for the cell that particle is in.", "quantifier": "all particle sets and positions", "why_tests_cant": "all particle distributions", "anchors": ["src/nektar_interface/composite_interaction/composite_intersection.cpp:find_cells", "src/nektar_interface/composite_interaction/composite_intersection.cpp:find_intersections_2d"]}
{"id": "C34", "title": "Coarse lookup returns every candidate element", "statement": "For each point in an element's bounding box the CoarseLookupMap cell that contains the point lists that element; candidate list accesses stay in the table and candidates are ordered by decreasing overlap.", "quantifier": "all element bounding boxes, all points, all grid sizes", "why_tests_cant": "continuum of points and boxes", "anchors": ["include/nektar_interface/particle_cell_mapping/coarse_lookup_map.hpp"]}
{"id": "C35", "title": "Device lookup index agrees with the host and is in bounds", "statement": "For any finite particle position the lookup cell computed on the device by MapParticlesNewton lies inside the lookup grid and has the same linear index the host used when building the map.", "quantifier": "all positions and grid sizes", "why_tests_cant": "continuum of positions including outside the domain", "anchors": ["include/nektar_interface/particle_cell_mapping/map_particles_newton.hpp:map_particles", "include/nektar_interface/utility_mesh_cartesian.hpp:get_linear_cell_index"]}
{"id": "C36", "title": "Newton inversion is sound and terminates", "statement": "MappingNewtonKernel x_inverse stops within max_iterations steps, and when it reports success the returned reference point maps to within the tolerance of the target in the residual measure, whatever geometry implementation is used.", "quantifier": "all geometry maps, targets, initial points, iteration limits", "why_tests_cant": "all maps, all trajectories of the iteration", "anchors": ["include/nektar_interface/particle_cell_mapping/x_map_newton_kernel.hpp:x_inverse"]}
{"id": "C37", "title": "Newton exit tolerance residual is a non-negative norm", "statement": "The residual measure used for the Newton exit test is non-negative and zero only when every component of the residual vector is zero, for every element.", "quantifier": "all elements, including those with negative Jacobian", "why_tests_cant": "all element orientations and bounding boxes", "anchors": ["include/nektar_interface/particle_cell_mapping/newton_relative_exit_tolerances.hpp"]}
{"id": "C38", "title": "Generated linear element maps and Newton steps are exact", "statement": "For linear quad, hex, prism, pyramid and tet elements newton_f returns X(xi) - P with X the element's vertex-interpolating map (X at reference vertex i is physical vertex i), and newton_step returns the exact Newton update xi - J^{-1} F with J the derivative of X, whenever J is invertible.", "quantifier": "all vertex coordinates, points and targets", "why_tests_cant": "polynomial identities in 30+ variables", "anchors": ["include/nektar_interface/particle_cell_mapping/generated_linear/"]}
{"id": "C39", "title": "Affine elements are inverted in one Newton step", "statement": "For linear tetrahedra (and parallelogram quads, parallelepiped hexes) with non-degenerate vertices a single Newton step from any starting point gives the exact reference point of the target.", "quantifier": "all non-degenerate affine elements, targets, starting points", "why_tests_cant": "continuum", "anchors": ["include/nektar_interface/particle_cell_mapping/generated_linear/tetrahedron.hpp", "include/nektar_interface/particle_cell_mapping/newton_tet.hpp"]}
{"id": "C40", "title": "Regular element containment test is exact", "statement": "For regular (affine) triangles, quads, tets, prisms, pyramids, hexes the mapping marks a particle as inside an element exactly when its position is in the physical element within tolerance, and the stored reference coordinate maps back to the position.", "quantifier": "all non-degenerate elements and positions", "why_tests_cant": "continuum", "anchors": ["include/nektar_interface/particle_cell_mapping/particle_cell_mapping_common.hpp", "src/nektar_interface/particle_cell_mapping/map_particles_2d_regular.cpp", "src/nektar_interface/particle_cell_mapping/map_particles_3d_regular.cpp"]}
{"id": "C41", "title": "Embedded triangle and quad inversion", "statement": "For a triangle embedded in 3D, the initial iterate computed by the linear triangle map is already the exact inverse for points in its plane; for an embedded quad the extended map X + normal*eta2 restricted to eta2=0 is the surface map.", "quantifier": "all non-degenerate triangles/quads in 3D and points", "why_tests_cant": "continuum", "anchors": ["include/nektar_interface/particle_cell_mapping/newton_triangle_embed_3d.hpp", "include/nektar_interface/particle_cell_mapping/newton_quad_embed_3d.hpp"]}
{"id": "C42", "title": "Element bounding boxes contain the element", "statement": "The bounding box computed by sampling a (multi)linear element's map on its faces with any grid size >= 2 contains the image of the whole reference element, and padding only enlarges the box.", "quantifier": "all multilinear maps, all points, all grid sizes >= 2", "why_tests_cant": "continuum", "anchors": ["include/nektar_interface/particle_cell_mapping/x_map_newton.hpp:get_bounding_box", "src/nektar_interface/particle_cell_mapping/x_map_bounding_box.cpp"]}
{"id": "C43", "title": "Field index map", "statement": "NektarFieldIndexMap::get_idx returns the position of the named field or -1 when there is none, at() raises for absent names, and get_idx on a distinct-name list is inverse to list indexing.", "quantifier": "all name lists", "why_tests_cant": "all lists", "anchors": ["include/nektar_interface/utilities.hpp:NektarFieldIndexMap"]}
{"id": "C44", "title": "find_owning_geom finds the owner", "statement": "If any rank holds a geometry that contains the point, find_owning_geom returns the lowest such rank and a geometry id that contains the point on it; all ranks agree on the rank.", "quantifier": "all candidate lists on all ranks", "why_tests_cant": "all orders of candidates", "anchors": ["include/nektar_interface/utilities.hpp:find_owning_geom"]}
{"id": "C45", "title": "uniform_within_elements gives exactly the requested samples", "statement": "uniform_within_elements generates exactly npart_per_cell positions for each cell, each accepted position passed that element's containment test, and positions, reference coordinates and cell indices arrays line up, for every random stream. If for some position the limit on the number of trials is reached the call stops with an error and gives nothing; otherwise it succeeds.", "quantifier": "all elements, random streams, sample counts", "why_tests_cant": "all random streams", "anchors": ["src/nektar_interface/utilities.cpp:uniform_within_elements"]}
{"id": "C46", "title": "Distributed line and point sampling partition the points", "statement": "ParticleInitialisationLine places each of the global points on exactly one rank with no duplicates; SimpleUniformPointSampler's ranks, sharing the same random stream, keep every drawn sample on exactly one rank so that counts over ranks sum to the requested number, for any history of calls.", "quantifier": "all rank counts, all point counts, all random streams, all call histories", "why_tests_cant": "all decompositions and histories", "anchors": ["include/particle_utility/particle_initialisation_line.hpp"]}
{"id": "C47", "title": "R-sequence positions stay in the domain", "statement": "rsequence_distribution places all particles within [0, extent) in each dimension, for every N, ndim and seed.", "quantifier": "all counts, seeds, extents", "why_tests_cant": "unbounded index", "anchors": ["include/particle_utility/position_distribution.hpp"]}
{"id": "C48", "title": "HDF5 writer steps and error detection", "statement": "GenericHDF5Writer names successive steps distinctly and in order, values written between step_start and step_end go to that step, and a failing HDF5 call is reported.", "quantifier": "all sequences of step/write calls, all return codes", "why_tests_cant": "all histories and failure points", "anchors": ["include/io/generic_hdf5_writer.hpp"]}
{"id": "C49", "title": "Solver callbacks run once per step in registration order", "statement": "SolverCallbackHandler invokes pre (post) integrate callbacks exactly once for each step in the order registered, pre callbacks never in post position and vice versa, for any interleaving of registrations and steps.", "quantifier": "all registration and step histories", "why_tests_cant": "all histories", "anchors": ["include/solvers/solver_callback_handler.hpp"]}
{"id": "C50", "title": "Implicit helper residual and matrix-free product", "statement": "ImplicitHelper's flattening of fields to a solver vector round-trips; residual is u - lambda*rhs(u) - source; the matrix-free product equals the exact Jacobian-vector product whenever the right-hand side is affine, whatever non-zero step is used.", "quantifier": "all field counts, sizes, values and steps", "why_tests_cant": "all vectors", "anchors": ["include/solvers/helpers/implicit_helper.hpp"]}
{"id": "C51", "title": "Boris push conserves energy in a pure magnetic field", "statement": "IntegratorBorisUniformB::boris_2 with no electric field preserves speed and the velocity component along B for every dt, charge, mass, B; in general it solves the implicit Boris equation, its velocity update is time reversible (a step with -dt restores the velocity), and advances position by dt times new velocity.", "quantifier": "all velocities, fields, steps, and any number of steps", "why_tests_cant": "continuum, unbounded number of steps", "anchors": ["solvers/Electrostatic2D3V/ParticleSystems/IntegratorBorisUniformB.hpp"]}
{"id": "C52", "title": "parse_equals splits name = value lines", "statement": "ParticleReader::parse_equals accepts exactly the lines with a single '=' having a non-empty trimmed left side and right side, returns both sides with surrounding spaces removed, and rejects all others with an exception.", "quantifier": "all strings", "why_tests_cant": "all strings", "anchors": ["src/nektar_interface/solver_base/particle_reader.cpp:parse_equals"]}
{"id": "C53", "title": "Session parameter and info lookups are case-insensitive maps", "statement": "get_info/defines_info/get_parameter/load_parameter treat names case-insensitively, report the last definition, agree with each other (get succeeds iff defines), and load with default leaves/sets the default iff undefined.", "quantifier": "all configuration contents and query names", "why_tests_cant": "all names and case patterns", "anchors": ["src/nektar_interface/solver_base/particle_reader.cpp"]}
{"id": "C54", "title": "Particle species/boundary/reaction sections are read faithfully", "statement": "read_boundary associates each region with each listed species (all species when no SPECIES attribute is given), rejects duplicates; reactions naming an undeclared species are rejected.", "quantifier": "all configuration trees", "why_tests_cant": "all configurations", "anchors": ["src/nektar_interface/solver_base/particle_reader.cpp:read_boundary", "src/nektar_interface/solver_base/particle_reader.cpp:read_reactions"]}
{"id": "C55", "title": "Particle mapping never disturbs mapped particles", "statement": "Running the chain of mappers (regular, Newton, host) on a set of particles assigns a cell only to particles not already mapped; each stage keeps earlier assignments; when the call completes without assertion in map_cell>-1 mode each particle has an owning rank and cell that accepted it.", "quantifier": "all particle sets, mapper behaviours", "why_tests_cant": "all mixes of mapped/unmapped particles", "anchors": ["src/nektar_interface/particle_cell_mapping/map_particles_2d.cpp", "src/nektar_interface/particle_cell_mapping/map_particles_3d.cpp", "src/nektar_interface/particle_cell_mapping/map_particles_host.cpp"]}
{"id": "C56", "title": "Every rank receives every other rank's geometries exactly once, on every schedule", "statement": "get_all_remote_geoms_2d, run collectively on any number of ranks with any local geometries, on every interleaving of the ranks and the network (including implementations in which a send only completes once the receive is posted) never deadlocks, performs finitely many steps, fails no assertion, and returns on each rank the geometries of all of the other ranks, each exactly once, with the owner rank, id and packed data they have on the owner.", "quantifier": "all numbers of ranks, local geometries, and all schedules of ranks and messages", "why_tests_cant": "the number of interleavings is unbounded and a test runs one schedule of one MPI implementation", "anchors": ["include/nektar_interface/geometry_transport/geometry_transport_2d.hpp:get_all_remote_geoms_2d"]}
{"id": "C57", "title": "The halo of a 2D mesh is exactly the remote elements which meet the owned cells", "statement": "Constructing a ParticleMeshInterface on a 2D mesh, collectively on any number of ranks, never deadlocks, never fails an assertion and terminates on every interleaving; afterwards the remote triangles and quadrilaterals of a rank are exactly the elements of the other ranks whose bounding box meets a mesh hierarchy cell owned by the rank, each exactly once and with the rank, id and data of its owner. Hence each element meeting an owned cell is local or in the halo, the claimed cells are partitioned into owned and unowned ones, and the neighbour ranks are the ranks with such elements, sorted and without duplicates.", "quantifier": "all numbers of ranks, distributed 2D meshes, cell owners, grids, and schedules of ranks and messages", "why_tests_cant": "the property is about every mesh partition and every interleaving of the ranks; a test runs a few meshes on a few ranks on one MPI implementation", "anchors": ["include/nektar_interface/particle_mesh_interface.hpp:exchange_get_send_ranks, exchange_init_send, exchange_get_recv_ranks, exchange_packed_2d, exchange_geometry_2d, create_halos_2d, get_unowned_cells, collect_neighbour_ranks"]}
{"id": "C58", "title": "extend_halos_fixed_offset adds exactly the elements near the cells of a rank", "statement": "Constructing a ParticleMeshInterface on a 2D mesh and then calling extend_halos_fixed_offset any number of times, collectively on any number of ranks, with offsets not larger than the grid, never deadlocks, never fails and terminates on every interleaving. Afterwards the remote triangles and quadrilaterals of a rank are, each exactly once and with the rank, id and data of the owner, exactly the elements of the other ranks whose bounding box meets a cell which the rank owns or a cell within one of the given offsets (in each dimension, with periodic images if requested) of a cell met by an element of the rank. Existing halo entries keep their place, a negative offset changes nothing and does not communicate, and an offset larger than the grid fails.", "quantifier": "all numbers of ranks, distributed 2D meshes, cell owners, grids, sequences of calls with offsets and boundary conditions, and schedules of ranks and messages", "why_tests_cant": "the property is about every partition, every offset, every sequence of calls and every interleaving of the ranks; a test runs a few meshes and offsets on one MPI implementation", "anchors": ["src/nektar_interface/geometry_transport/halo_extension.cpp:extend_halos_fixed_offset, halo_get_map_rank_to_cells, halo_get_send_cells, halo_get_rank_to_geoms_2d", "include/nektar_interface/geometry_transport/halo_extension.hpp:halo_get_cells_to_geoms_map, halo_exchange_geoms_2d, halo_unpack_2D_geoms"]}
{"id": "C59", "title": "A position bound by the Newton mapping lies in the element up to the tolerances", "statement": "Whenever the Newton mapping of a straight-sided element accepts a position, from any starting point (given or one from the grid), with any number of iterations and any tolerances, the reference position it stores lies in the reference element enlarged by at most five times the contained tolerance, and the map of the element takes that reference position to the position of the particle up to the Newton tolerance times the scale of the element, in each direction. For parallelograms the converse holds: every position in the element is accepted with its exact reference position.", "quantifier": "all straight-sided elements with a positive mean Jacobian, positions, starting points, iteration counts and tolerances", "why_tests_cant": "tests map finitely many positions on a few meshes; an accepted position in the wrong element depends on the geometry and the start of the iteration", "anchors": ["include/nektar_interface/particle_cell_mapping/map_particles_newton.hpp:MapParticlesNewton::map", "include/nektar_interface/particle_cell_mapping/newton_*.hpp:newton_residual_v, newton_step_v, loc_coord_to_loc_collapsed_v"]}
{"id": "C60", "title": "The halo of a 3D mesh", "statement": "Constructing a ParticleMeshInterface on a 3D mesh collectively on any number of ranks never deadlocks, never fails and terminates on every interleaving. Afterwards the remote tetrahedra, pyramids, prisms and hexahedra of a rank are, each exactly once and with the rank, id and data of the owner, exactly the elements of the other ranks whose bounding box meets a cell which the rank owns; the remote triangles and quadrilaterals are exactly the faces of those elements, each exactly once per sending rank; every remote element is rebuilt with the faces (ids, vertices, edges) it has on its owner. The neighbour ranks are exactly the ranks of the remote elements.", "quantifier": "all numbers of ranks, distributed 3D meshes, cell owners, and schedules of ranks and messages", "why_tests_cant": "the property is about every partition of every mesh and every interleaving of the three exchanges; a test runs a few meshes on one MPI implementation", "anchors": ["include/nektar_interface/particle_mesh_interface.hpp:create_halos_3d, exchange_2d_send_wrapper, collect_neighbour_ranks", "src/nektar_interface/geometry_transport/geometry_transport_3d.cpp:deconstuct_per_rank_geoms_3d, sendrecv_geoms_3d, reconstruct_geoms_3d"]}
{"id": "C61", "title": "Extending the halo of a 3D mesh", "statement": "After the construction of a ParticleMeshInterface on a 3D mesh and any sequence of collective calls of extend_halos_fixed_offset with offsets up to the size of the mesh, on every interleaving: no rank fails or deadlocks and all return; the remote elements of a rank are, each exactly once and with the rank, id and faces of the owner, exactly the elements of the other ranks which meet a cell owned by the rank or a cell within one of the non-negative offsets (periodic if requested) of a cell which an element of the rank meets; the remote triangles and quadrilaterals are exactly the faces of the remote elements, each once. A negative offset changes nothing; an offset larger than the mesh is refused.", "quantifier": "all numbers of ranks, distributed 3D meshes, cell owners, sequences of offsets and periodicity flags, and schedules of ranks and messages", "why_tests_cant": "the property is about every partition of every mesh, every sequence of extensions and every interleaving of the exchanges; a test runs a few meshes on one MPI implementation", "anchors": ["src/nektar_interface/geometry_transport/halo_extension.cpp:extend_halos_fixed_offset, halo_get_rank_to_geoms_3d, halo_get_rank_to_geoms_2d, halo_exchange_send_sizes, halo_get_cells_to_geoms_map", "include/nektar_interface/geometry_transport/geometry_packing_utility.hpp", "src/nektar_interface/geometry_transport/geometry_transport_3d.cpp:reconstruct_geoms_3d, sendrecv_geoms_3d"]}
{"id": "C62", "title": "Ionisation moves weight to the fluid", "statement": "One ionisation call on a neutral particle of the SimpleSOL or DriftReduced systems, for every particle, plasma value, time step and unit conversion: the rate is positive and equals the documented formula for every positive temperature (and is not finite otherwise); the new weight is the explicit Euler step cut off at zero; weight lost equals time step times unit conversion times the density source handed to the fluid; the particle is marked for removal iff nothing of it remains; position, velocity and otherwise identity are kept; the momentum and energy sources are those of the ionised weight moving along the field line. In a plasma of non-negative density weights stay between zero and their old value.", "quantifier": "all particles, plasma densities and temperatures, time steps and unit conversions", "why_tests_cant": "positivity of the rate and conservation have to hold for every real temperature, density and step, including the branch where the particle is used up", "anchors": ["solvers/SimpleSOL/ParticleSystems/NeutralParticleSystem.hpp:ionise", "solvers/DriftReduced/ParticleSystems/NeutralParticleSystem.hpp:ionise", "solvers/common/solver_utils.hpp:expint_barry_approx"]}
{"id": "C63", "title": "Particle sub steps cover the fluid step exactly", "statement": "integrate(time_end, dt) of the neutral particle systems refuses to go backwards, does nothing if the time is reached, never ends for a non-positive dt, and otherwise performs ceil((time_end-t)/dt) sub steps, all of size dt but the last, which is positive, not longer than dt and ends exactly at time_end. In a fluid step with m particle sub steps the particles do exactly m equal sub steps of timestep/m; over any number of fluid steps the clocks agree, and the SimpleSOL system creates m*lines*floor(N/lines) particles per fluid step (none at all if N < lines).", "quantifier": "all start and end times, step sizes, numbers of sub steps and fluid steps", "why_tests_cant": "the number and the sizes of the steps have to be right for every ratio of the times", "anchors": ["solvers/SimpleSOL/ParticleSystems/NeutralParticleSystem.hpp:integrate, add_particles", "solvers/DriftReduced/ParticleSystems/NeutralParticleSystem.hpp:integrate", "solvers/SimpleSOL/EquationSystems/SOLWithParticlesSystem.cpp:v_PreIntegrate", "solvers/DriftReduced/EquationSystems/DriftReducedSystem.cpp:v_PreIntegrate"]}
{"id": "C64", "title": "Mass balance of particles and fluid", "statement": "For any plasma fields, particle sources, units, numbers of particle sub steps and any number of fluid steps: the mass which the particles lose to ionisation is the integral over the fluid step of the density source handed to the fluid, so that the sum of particle mass, fluid mass and mass lost at walls equals the initial mass plus the mass added (the relative error which the mass recorders write is zero for periodic domains); after every fluid step all particles have positive weight and none is waiting for removal; the DriftReduced system adds its particles exactly once.", "quantifier": "all histories of fluid steps, plasma fields, sources, unit conversions, numbers of sub steps", "why_tests_cant": "conservation has to hold for every history; a run with a tolerance does not notice sources which are dropped", "anchors": ["solvers/SimpleSOL/ParticleSystems/NeutralParticleSystem.hpp:integrate, ionise, project_source_terms, wall_boundary_conditions, remove_marked_particles", "solvers/DriftReduced/ParticleSystems/NeutralParticleSystem.hpp:integrate, ionise, project_source_terms", "solvers/SimpleSOL/Diagnostics/MassRecording.hpp:compute", "solvers/DriftReduced/Diagnostics/MassRecorder.hpp:compute"]}
{"id": "C65", "title": "Weights, charges and neutrality of the electrostatic solver", "statement": "The macro particles represent the requested plasma: number times weight is number density times volume, charge times number density is the charge density, the requested values are used. For every particle distribution the right hand side of the Poisson problem is minus the weight times the deviation of the projected charge density from its mean; it integrates to zero (up to a stated bound if the space does not represent constants), so the neutrality assertion cannot fire, and the potential gradient at the particles depends on the current particles only. The integral of a Galerkin projection of the charges is the total charge.", "quantifier": "all session parameters, particle distributions, function spaces and previous field states", "why_tests_cant": "neutrality has to hold for every distribution of particles and space; parameters can be combined in every way", "anchors": ["solvers/Electrostatic2D3V/ParticleSystems/ChargedParticles.hpp:ChargedParticles", "solvers/Electrostatic2D3V/ParticleSystems/PoissonParticleCoupling.hpp:add_neutralising_field, solve_equation_system, compute_field", "solvers/Electrostatic2D3V/EquationSystems/PoissonPIC.cpp:v_DoSolve"]}
{"id": "C66", "title": "Velocity Verlet is the St\u00f6rmer-Verlet method and time reversible", "statement": "For every field that is a function of positions and charges, any number of particles and steps: positions follow the St\u00f6rmer-Verlet recursion modulo the periods with the acceleration -q/m times the (rescaled) potential gradient; from any state whose stored gradient belongs to its positions (every state after the first step), n steps, reversed velocities and n steps lead back exactly, across periodic boundaries; if the total force vanishes the total momentum is conserved; masses, charges and the third velocity component never change. Verlet is used iff chosen by the user or no magnetic field is given.", "quantifier": "all fields, particle systems, step sizes, numbers of steps", "why_tests_cant": "reversibility and the recursion are statements over all trajectories of any length", "anchors": ["solvers/Electrostatic2D3V/ParticleSystems/ChargedParticles.hpp:velocity_verlet_1, velocity_verlet_2, transfer_particles", "solvers/Electrostatic2D3V/ElectrostaticTwoStream2D3V.hpp:run, integrator_1, integrator_2"]}
{"id": "C67", "title": "Diagnostics of the electrostatic solver", "statement": "The mean of a field is the unique constant whose subtraction makes its integral zero; field energy and potential energy do not change if a constant is added to the potential, the field energy is non-negative and zero only for constant potentials; the kinetic energy is the sum of m v^2/2 over the particles; the line field evaluations sample exactly the centres of the nx*ny boxes of the domain, each index once; initial positions are in the domain.", "quantifier": "all fields, quadratures, particle systems, grids and domains", "why_tests_cant": "invariance under shifts and inclusion in the domain are claims for all fields and domains", "anchors": ["solvers/Electrostatic2D3V/Diagnostics/FieldMean.hpp", "solvers/Electrostatic2D3V/Diagnostics/FieldEnergy.hpp", "solvers/Electrostatic2D3V/Diagnostics/KineticEnergy.hpp", "solvers/Electrostatic2D3V/Diagnostics/PotentialEnergy.hpp", "solvers/Electrostatic2D3V/Diagnostics/LineFieldEvaluations.hpp", "solvers/Electrostatic2D3V/ParticleSystems/ChargedParticles.hpp:add_particles"]}
{"id": "C68", "title": "Particle counts, output schedule and particle identities of the solvers", "statement": "A positive total number of particles is used as given; otherwise a positive number per cell is multiplied by the number of mesh elements over all ranks, independently of how the elements are distributed. Particle output happens exactly at the multiples of a positive frequency and the file contains exactly the particle states at the writes after it was set up, in order. After any number of additions, over all ranks, no two particles have the same identity.", "quantifier": "all configurations, distributions of elements, step numbers, histories of set up / change / write, numbers of ranks and additions", "why_tests_cant": "uniqueness and file contents are claims over all histories and all numbers of ranks", "anchors": ["include/nektar_interface/solver_base/partsys_base.hpp", "src/nektar_interface/solver_base/partsys_base.cpp", "solvers/DriftReduced/ParticleSystems/NeutralParticleSystem.cpp:add_particles", "solvers/Electrostatic2D3V/ParticleSystems/ChargedParticles.hpp:add_particles", "solvers/SimpleSOL/ParticleSystems/neutral_particles.hpp:add_particles"]}
{"id": "C69", "title": "Equation systems read and write the fields they name", "statement": "For every session an equation system accepts, each equation reads the values of the field it names and no other, and particle sources named X_src are added to the equation of X and to no other; particles are used exactly if the session asks for a known particle system; the particle system is freed exactly once at the end of the run.", "quantifier": "all lists of session variables (names, order, sizes), all field values, all particle source registrations", "why_tests_cant": "the set of variable lists and values is infinite; tests use the shipped order only", "anchors": ["include/nektar_interface/solver_base/eqnsys_base.hpp", "include/nektar_interface/solver_base/time_evolved_eqnsys_base.hpp", "solvers/DriftReduced/EquationSystems/HWSystem.cpp", "solvers/DriftReduced/EquationSystems/LAPDSystem.cpp", "solvers/DriftReduced/EquationSystems/RogersRicci2DSystem.cpp", "solvers/DriftPlane/EquationSystems/Blob2DSystem.cpp", "solvers/SimpleSOL/EquationSystems/SOLSystem.cpp"]}
{"id": "C70", "title": "Drift and advection velocities", "statement": "For every non-zero magnetic field and every electric field the computed drift is E x B / |B|^2: perpendicular to both fields and such that E + v x B is the part of E along B. The velocity of a species has the parallel velocity as component along B and the drift as the rest; the parallel velocity times mass times density is the momentum density wherever the density is above the floor and is bounded everywhere; the normal flux on a trace is the field times the normal velocity; the polarisation drift velocity is the difference of the species' velocities.", "quantifier": "all magnetic and electric fields, densities, momentum densities, masses, mesh dimensions", "why_tests_cant": "identities over all real vectors", "anchors": ["solvers/DriftReduced/EquationSystems/DriftReducedSystem.cpp:calc_E_and_adv_vels, get_adv_vel_norm, get_flux_vector, load_params", "solvers/DriftReduced/EquationSystems/LAPDSystem.cpp:calc_E_and_adv_vels, get_adv_vel_norm_PD"]}
{"id": "C71", "title": "Energy, enstrophy, momentum and sheath balances of the DriftReduced systems", "statement": "For every solution of the Hasegawa-Wakatani equations as the program evaluates them, with operators that are consistent (Galerkin Poisson solve, skew-symmetric advection), the recorded expected rates are the rates of change of the recorded energy and enstrophy, up to the contribution of particle sources; coupling dissipates. In LAPD, the parallel electric field and collisions exchange momentum between the species without creating any, and friction opposes the relative motion. In Rogers-Ricci the source is bounded, positive and falls with the distance from the axis, and the sheath current vanishes exactly at the floating potential. Recording happens at the multiples of a positive recording step only, and a step of zero disables it.", "quantifier": "all states, solutions, discretisations meeting the consistency conditions, parameters, step numbers", "why_tests_cant": "tests compare growth rates along a few runs with tolerances; the balances are identities for every state", "anchors": ["solvers/DriftReduced/EquationSystems/HW2DSystem.cpp:explicit_time_int", "solvers/DriftReduced/EquationSystems/HW3DSystem.cpp:explicit_time_int, calc_par_dyn_term", "solvers/DriftReduced/EquationSystems/LAPDSystem.cpp:explicit_time_int", "solvers/DriftReduced/EquationSystems/RogersRicci2DSystem.cpp:explicit_time_int", "solvers/DriftReduced/Diagnostics/GrowthRatesRecorder.hpp"]}
{"id": "C72", "title": "Anisotropic diffusion: tensor, time stepping and coupling", "statement": "The diffusion tensor maps every gradient to 2/(3n) times (k_par times its part along the field direction at -theta degrees plus k_perp times the rest), is positive definite for positive parameters and does not depend on the collection type; each implicit solve is a step of backward Euler, so the solver is stable for every step size and number of steps and conserves the integral if the operator does; a coupled receiver uses the sender's tensor.", "quantifier": "all parameters, gradients, fields, step sizes, numbers of steps, meshes of sender and receiver", "why_tests_cant": "stability for every step size and number of steps, and algebraic identities over all reals", "anchors": ["solvers/Diffusion/EquationSystems/DiffusionSystem.cpp:load_params, setup_helmsolve_coeffs, do_implicit_solve, get_collection_type", "solvers/Diffusion/EquationSystems/CwipiDiffTensorSender.cpp:v_PreIntegrate", "solvers/Diffusion/EquationSystems/CwipiReceiveDiffTensorAndDiffuse.cpp:v_PreIntegrate"]}
{"id": "C73", "title": "Drift plane solver: velocities, fluxes and charge balance", "statement": "The advecting velocity is the E x B drift, along contours of the potential and divergence free; numerical fluxes are consistent with bulk fluxes (including the curvature term), taken from the upstream side, dissipative, and independent of the orientation of the trace; the sheath takes charge and vorticity in the ratio e, so that the integral of e n - w is conserved by every solution; the vorticity is div(grad phi + grad ph)/B^2.", "quantifier": "all states on both sides of a trace, normals, velocities, parameters, solutions", "why_tests_cant": "identities over all real states and solutions", "anchors": ["solvers/DriftPlane/EquationSystems/DriftPlaneSystem.cpp", "solvers/DriftPlane/EquationSystems/Blob2DSystem.cpp", "solvers/DriftPlane/RiemannSolvers/DriftUpwindSolver.hpp:v_Solve"]}
{"id": "C74", "title": "SimpleSOL: Euler fluxes and sources", "statement": "Fluxes are those of the Euler equations in 1D and 2D for every equation of state, the momentum flux is symmetric and fluxes turn with the state under every rotation of the plane; density and energy sources are positive and symmetric about the middle of the domain, the momentum source is antisymmetric, parallel to the source direction; totals do not depend on the width of the sources; the total of a field changes by the totals of its sources only.", "quantifier": "all states, rotations, equations of state, source parameters and positions", "why_tests_cant": "tests run a few angles and widths; invariance holds for all", "anchors": ["solvers/SimpleSOL/EquationSystems/SOLSystem.cpp:get_flux_vector, explicit_time_int", "solvers/SimpleSOL/Forcing/SourceTerms.cpp"]}
{"id": "C75", "title": "The mesh hierarchy covers the elements of all ranks", "statement": "The constructor of ParticleMeshInterface builds, on all ranks and independently of how the elements are distributed over the ranks (some of which may have none), the same mesh hierarchy. It starts at the lower corner of the smallest box around all elements, has cubic cells of positive width, in each dimension the least positive number of coarse cells reaching the upper corner, and the coarse width is the smallest extent of the domain or, if no extent is twice another, the largest. Every point inside an element's bounding box is in a cell of the hierarchy claimed by the rank of the element. A mesh without elements or with an extent that is not positive is rejected.", "quantifier": "all meshes (numbers of elements, boxes), numbers of ranks, distributions of the elements over the ranks, subdivision offsets", "why_tests_cant": "tests run a few meshes on one or two ranks; the cover must hold for every mesh and distribution or particles are lost", "anchors": ["include/nektar_interface/particle_mesh_interface.hpp:ParticleMeshInterface::compute_bounding_box", "include/nektar_interface/particle_mesh_interface.hpp:ParticleMeshInterface::create_mesh_hierarchy", "include/nektar_interface/bounding_box_intersection.hpp:reset_bounding_box, expand_bounding_box"]}
{"id": "C76", "title": "Subdivision order of the mesh hierarchy", "statement": "An offset of 0 gives a hierarchy with about as many fine cells as the mesh has elements (documented); the order does not decrease with the number of elements, is never negative, an offset is added to the matching order, and the fine cells are at most 2^ndim times the elements or the coarse cells.", "quantifier": "all numbers of elements and coarse cells, dimensions, offsets", "why_tests_cant": "the mismatch grows without bound with the number of elements; small test meshes do not show it", "anchors": ["include/nektar_interface/particle_mesh_interface.hpp:ParticleMeshInterface::create_mesh_hierarchy"]}
{"id": "C77", "title": "A point in the subdomain", "statement": "get_point_in_subdomain gives, on each rank that has an element, a point that one of the elements of this rank contains: the mean of its vertices (always for convex elements), otherwise its first vertex. It fails exactly on ranks without elements.", "quantifier": "all meshes of two or three dimensions, all mixtures of shapes", "why_tests_cant": "tests have a few meshes and shapes", "anchors": ["include/nektar_interface/particle_mesh_interface.hpp:ParticleMeshInterface::get_point_in_subdomain", "src/nektar_interface/geometry_transport/geometry_transport_2d.cpp:get_element_2d", "src/nektar_interface/geometry_transport/geometry_transport_3d.cpp:get_element_3d", "src/nektar_interface/composite_interaction/composite_utility.cpp:get_vertex_average"]}
{"id": "C78", "title": "Projecting the particles of a mesh onto fields", "statement": "FieldProject::project sets each field to the L2 projection of the particles: entry i of the right hand side is the sum over exactly the selected particles of all cells of (component of the dat) times the value of global mode i at the particle, for every order of the atomic additions and any previous content of the local memory, without access outside of the buffers; field f uses symbol f and component f; the call succeeds iff there is one symbol and one component per field and each component exists. The inner product of the result with each function of the space is the weighted sum of the function's values at the particles; the integral of the field is the total weight. The implementation on the host gives the same right hand side.", "quantifier": "all meshes and mixtures of shapes, orders, particle distributions, selections (sub groups), components, numbers of fields, schedules of atomic additions, initial memory contents", "why_tests_cant": "tests project a handful of particles on small meshes; offsets, scratch sizes and launch structure depend on all mixtures of shapes and orders", "anchors": ["include/nektar_interface/function_projection.hpp:FieldProject::project_inner, project", "include/nektar_interface/function_basis_projection.hpp:FunctionProjectBasis::project, project_inner", "include/nektar_interface/basis_evaluation.hpp:BasisEvaluateBase", "include/nektar_interface/function_projection.hpp:FieldProject::project_host"]}
{"id": "C79", "title": "Evaluating fields at the particles of a mesh", "statement": "FieldEvaluate::evaluate (no derivative) stores in the given component of the dat of each selected particle the value of the field at the particle, and changes nothing else: other components, other particles and particles that are not selected keep their values; it does not read uninitialised memory or access memory outside of its buffers. It is adjoint to projection: the weighted sum of the evaluated values is the pairing of the field with the right hand side of the projection of the weights.", "quantifier": "all meshes and mixtures of shapes, orders, fields, particle distributions, selections, components, initial memory contents", "why_tests_cant": "tests evaluate a few analytic functions; adjointness and untouched particles quantify over all fields, meshes and selections", "anchors": ["include/nektar_interface/function_evaluation.hpp:FieldEvaluate::evaluate", "include/nektar_interface/function_basis_evaluation.hpp:FunctionEvaluateBasis::evaluate, evaluate_inner", "include/nektar_interface/basis_evaluation.hpp:BasisEvaluateBase"]}
{"id": "C80", "title": "Evaluating derivatives and quadrature point functions at the particles of a mesh", "statement": "FieldEvaluate::evaluate with derivative=true stores in component d (d below the dimension of the mesh) of the dat of each selected particle the value at the particle of the derivative of the field in direction d, i.e. of the polynomial through the derivative's values at the quadrature points of the particle's element; other components, dats and particles are unchanged; it is refused iff the dat has too few components. BaryEvaluateBase::evaluate does the same for any functions, symbols and components. Results do not depend on the device, the choice between the particle, sub group and block kernels, the schedule, or the content of uninitialised memory. The constructor accepts cells of a shape whose nodes agree and rejects deviations above 1e-10.", "quantifier": "all meshes and mixtures of shapes and numbers of nodes, functions, particle positions and selections, targets, devices, block sizes, schedules, memory contents", "why_tests_cant": "tests evaluate a few functions on a few meshes on one device; caches, offsets, interlacing and partial blocks depend on all mixtures and counts", "anchors": ["include/nektar_interface/function_evaluation.hpp:FieldEvaluate::evaluate", "include/nektar_interface/function_bary_evaluation.hpp:BaryEvaluateBase::BaryEvaluateBase, evaluate_inner, dispatch_2d, dispatch_3d, dispatch_3d_cpu"]}
{"id": "C81", "title": "Newton's method on curved 3D elements evaluates the element's map and exact Jacobian", "statement": "For every curved 3D element, the data written by write_data suffices for newton_residual to return X(xi) - p, where X has in the collapsed coordinates the polynomials with the coordinates' values at the quadrature points, and its scaled error; newton_step then solves with the matrix of the interpolated derivatives, and for elements whose map is a polynomial of the element's space (away from the collapsed edge) this matrix is the Jacobian of the map, so it is Newton's method. No array is accessed out of bounds and nothing depends on the initial content of the local memory. If x_inverse reports success then the result is finite and its residual is within the tolerance.", "quantifier": "all element shapes, numbers of quadrature points, geometries, positions, starting points, iteration limits, tolerances, memory contents", "why_tests_cant": "tests invert a few points on a few curved elements; offsets and interlacing depend on all numbers of points and an approximate Jacobian still converges", "anchors": ["include/nektar_interface/particle_cell_mapping/newton_generic_3d.hpp:MappingGeneric3D::write_data_v, newton_residual_v, newton_step_v", "include/nektar_interface/particle_cell_mapping/x_map_newton_kernel.hpp:XMapNewtonKernel::x_inverse"]}
{"id": "C82", "title": "XMapNewton: the map of an element and its inverse", "statement": "XMapNewton::x returns the element's map at the reference position. XMapNewton::x_inverse always ends and returns true exactly if Newton's method with at most 51 steps from some point of the grid of starting points converges to a point that still has a residual within the tolerance after its collapsed coordinates are moved into [-1-contained_tol, 1+contained_tol]; then it returns such a point, for curved elements a finite one. On affine hexahedra, prisms, tetrahedra and pyramids x_inverse(x(w)) returns true for every w of the element away from the collapsed edge, with w itself unless the first vertex is within the tolerance.", "quantifier": "all elements, positions, tolerances, grid sizes, memory contents", "why_tests_cant": "tests invert sampled points of sampled elements", "anchors": ["include/nektar_interface/particle_cell_mapping/x_map_newton.hpp:XMapNewton::x, XMapNewton::x_inverse"]}
{"id": "C83", "title": "make_hex_geom builds the curves of the mapped cube", "statement": "make_hex_geom(num_modes, xmap) builds a hexahedron whose vertices, edge curves and face curves are the images under xmap of the corners, edges and faces of the cube [-1,1]^3: each edge joins its two corners, its curve holds the images of the evenly spaced points of the edge; each face is bounded by a cycle of four edges, its curve holds the images of the tensor grid between the corners of that face; all points have different ids.", "quantifier": "all numbers of modes, point distributions and maps", "why_tests_cant": "a test builds a few curved hexahedra with one map and checks a mapping back and forth; wrong control points of a face are invisible for maps where they do not matter, and a test of one map or order does not cover the others", "anchors": ["include/nektar_interface/utility_mesh.hpp:make_hex_geom"]}
{"id": "C84", "title": "Every particle inside the mesh is found", "statement": "When the elements known to a rank cover a box, a call of the particle to cell mapping completes for every group of particles with positions in the box (a call for one cell or for all): no particle is left without a cell, no error is raised, no invalid memory is read; a particle that was unmapped gets the id and the rank of an element that maps its reference position to its position, mapped particles and positions are unchanged.", "quantifier": "all meshes of triangles and parallelograms or affine 3D elements that cover a box, all lists of particles and cells, all positions in the box including element boundaries and the boundary of the box", "why_tests_cant": "tests map random positions in a few meshes; a position on a lookup grid line, an element corner or the upper boundary has measure zero in such tests", "anchors": ["include/nektar_interface/particle_cell_mapping/coarse_lookup_map.hpp:CoarseLookupMap", "src/nektar_interface/particle_cell_mapping/map_particles_2d_regular.cpp:MapParticles2DRegular::map", "src/nektar_interface/particle_cell_mapping/map_particles_3d_regular.cpp:MapParticles3DRegular::map", "src/nektar_interface/particle_cell_mapping/map_particles_2d.cpp:MapParticles2D::map", "src/nektar_interface/particle_cell_mapping/map_particles_3d.cpp:MapParticles3D::map", "include/nektar_interface/particle_cell_mapping/map_particles_newton.hpp:MapParticlesNewton"]}
{"id": "C85", "title": "A particle on the rank of its cell is bound to the element of the distributed mesh that contains it", "statement": "The mesh is distributed over ranks and the halos are exchanged (on every schedule). On the rank that owns the cell of the mesh hierarchy of its position, every particle of the domain is found by the mapping: the call completes, and the particle gets the id of an element of the mesh, the rank that has this element, and a reference position that the element maps to its position.", "quantifier": "all numbers of ranks, partitions of the mesh, cell owners, schedules of the messages, meshes of triangles and parallelograms or affine 3D elements that cover a box, groups of particles", "why_tests_cant": "tests run a few ranks and one mesh and partition with random particles; the property needs the claims of cells, the exchange, the lookup and the order of the mappers to fit together for all of them", "anchors": ["include/nektar_interface/particle_mesh_interface.hpp:ParticleMeshInterface", "src/nektar_interface/particle_cell_mapping/map_particles_2d_regular.cpp:MapParticles2DRegular", "src/nektar_interface/particle_cell_mapping/map_particles_3d_regular.cpp:MapParticles3DRegular", "include/nektar_interface/particle_cell_mapping/coarse_lookup_map.hpp:CoarseLookupMap"]}
{"id": "C86", "title": "Projection conserves the total and the centre of the projected quantity, evaluation is exact on constants and positions", "statement": "For every mesh of triangles, quadrilaterals, hexahedra, prisms, pyramids and tetrahedra and every number of modes from two on: evaluating a field that is constant gives the constant at every particle that is not exactly at a collapsed end, and evaluating the coordinate function of a straight-sided mesh gives the position of every particle that is farther than the tolerance from the collapsed edges and vertices. Whenever projecting a component of the particles onto a field completes, the integral of the field is the sum of the component over the selected particles (for a discontinuous field in each single element), wherever the particles are, and its first moments are those of the particles.", "quantifier": "all meshes, shapes and orders, all particle positions and weights, all selections of particles, all orders of the atomic additions, all fields whose mass matrix solver is exact", "why_tests_cant": "tests compare with the host implementation or check a tolerance on one smooth function on one mesh per shape; conservation is an identity that must hold for every order, shape and set of particles", "anchors": ["include/nektar_interface/function_basis_projection.hpp:FunctionProjectBasis", "include/nektar_interface/function_basis_evaluation.hpp:FunctionEvaluateBasis", "include/nektar_interface/function_projection.hpp:FieldProject::project", "src/nektar_interface/basis_reference.cpp:eval_modA_i"]}
{"id": "C87", "title": "Main loops of the electrostatic solvers", "statement": "For every number of steps, all output periods (also zero and negative ones), ranks, callbacks and initial particles, run() of both electrostatic solvers performs exactly max(0, particle_num_time_steps) time steps (first half of the push, field solve, second half, callbacks in the order of registration) and no diagnostic changes the trajectory. Particles, fields, line evaluations, printed lines and the groups of the energy file appear exactly at the steps that are multiples of their positive period, in order, with the values at the end of that step; the file is written by rank 0 only and all its HDF5 calls succeed. The recorded potential is that of the recorded particles. With the Boris integrator each velocity solves the implicit Boris equation with the field of the begin of the step, and with the electric coefficient zero all recorded kinetic energies are equal. The magnetic field of the Bernstein solver needs all its three parameters.", "quantifier": "all configurations, numbers of steps, particles, field solvers, callbacks that may change the simulation, values of uninitialised members", "why_tests_cant": "the integration tests run one configuration of each solver for a few steps and compare energies with a tolerance", "anchors": ["solvers/Electrostatic2D3V/ElectrostaticTwoStream2D3V.hpp:run", "solvers/Electrostatic2D3V/ElectrostaticElectronBernsteinWaves2D3V.hpp:run"]}
{"id": "C88", "title": "VTK files of meshes", "statement": "For every collection of geometry objects of a mesh, write of VTKGeometryWriter produces a file that a reader of the legacy VTK format reads back as: each edge of the collection exactly once as a line, in the order of the global ids, with the positions of its two vertices and the property zero, then each two dimensional object in the order in which it was added, with its VTK type, the positions of its vertices in order and the property that was given last for it; all cells carry the rank, each vertex is written once, and the announced sizes are right. The files of owned elements carry the property zero, those of the halo the rank of each remote element; in three dimensions only the edges are written. An edge without exactly two vertices is an error.", "quantifier": "all collections of geometry objects with consistent ids, in all orders and with repetitions, all properties and ranks", "why_tests_cant": "the tests write a few files and do not read them", "anchors": ["include/nektar_interface/utility_mesh_plotting.hpp:VTKGeometryWriter", "include/nektar_interface/utility_mesh_plotting.hpp:write_vtk_cells_owned", "include/nektar_interface/utility_mesh_plotting.hpp:write_vtk_cells_halo"]}
{"id": "C89", "title": "Mass recording", "statement": "For every history of a coupled simulation on any number of ranks and every positive mass_recording_step, the file of rank 0 has exactly one line for each step that is a multiple of it, in order, with the mass of all particles on all ranks, the fluid mass after that step and the error relative to the mass added so far plus the fluid mass before the first step; the error is zero exactly if the mass is conserved. The initial mass is computed once. Other ranks write nothing and perform the same sequence of collective operations. Without the parameter, or if it is not positive, nothing is written. Lines never depend on uninitialised values, and recording can be configured with and without particles.", "quantifier": "all histories of steps, numbers of ranks and particles, weights, densities and unit factors, both mass recorders", "why_tests_cant": "the integration tests run two configurations for a few steps on one rank count and compare with a tolerance", "anchors": ["solvers/DriftReduced/Diagnostics/MassRecorder.hpp", "solvers/SimpleSOL/Diagnostics/MassRecording.hpp", "solvers/DriftReduced/EquationSystems/HWSystem.cpp:v_PreIntegrate,v_PostIntegrate", "solvers/SimpleSOL/EquationSystems/SOLWithParticlesSystem.cpp:v_PreIntegrate,v_PostIntegrate"]}
{"id": "C90", "title": "Parallel time steps equal serial time steps", "statement": "A mesh of straight-sided regular elements that cover a periodic box (periods of at least one, see C27) is distributed over any number of ranks. After any execution of the construction of the halos, for particles that are anywhere, any number of time steps (a particle loop that moves particles, then transfer_particles) completes on all ranks: every rank can map every particle it receives. The particles of all ranks together are those of the same time steps on one process: none is lost, duplicated or changed by the transfer, and neither the number of ranks nor the distribution is observable. After each transfer every particle is on the rank and in the cell of an element that contains it, with the reference position the element maps to its position.", "quantifier": "all numbers of ranks, meshes (triangles and parallelograms; affine tetrahedra, pyramids, prisms and hexahedra), distributions, executions of the halo construction, particles, motions of particles (depending on all particles) and numbers of steps", "why_tests_cant": "tests run a few decompositions of a few meshes with a few particles and steps", "anchors": ["solvers/DriftReduced/ParticleSystems/NeutralParticleSystem.hpp:transfer_particles", "solvers/SimpleSOL/ParticleSystems/NeutralParticleSystem.hpp:transfer_particles", "solvers/Electrostatic2D3V/ParticleSystems/ChargedParticles.hpp:transfer_particles", "include/nektar_interface/cell_id_translation.hpp:execute", "src/nektar_interface/particle_boundary_conditions.cpp", "src/nektar_interface/particle_cell_mapping/map_particles_2d.cpp", "src/nektar_interface/particle_cell_mapping/map_particles_3d.cpp"]}
{"id": "C91", "title": "The electrostatic simulation does not depend on the ranks", "statement": "The electrostatic simulation (velocity Verlet or Boris integrator; projection of the charges, solve, gradient of the potential at the particles) on any number of ranks is a run of the simulation without ranks: after any number of time steps the particles of all ranks together, with charge, mass, velocity and field, are those of a run on the list of all particles, the potential is that of this run, every particle is in the cell of an element that contains it, and the rows of the energy file (field, kinetic and potential energy) are those of this run. Charges and masses of the particles are never changed and the projected total charge is the same in each step. If value and gradient of the functions of the finite element space agree on the edges shared by elements, the run is unique: two simulations of the same particles on different numbers of ranks have the same particles, potentials and energies in every step.", "quantifier": "all numbers of ranks, meshes of triangles and parallelograms that cover a box, distributions, executions of the halo construction, particles, time steps, fields, finite element spaces and numbers of steps", "why_tests_cant": "tests run a few decompositions of a few meshes with a few particles and steps", "anchors": ["solvers/Electrostatic2D3V/ParticleSystems/ChargedParticles.hpp:velocity_verlet_1", "solvers/Electrostatic2D3V/ParticleSystems/ChargedParticles.hpp:velocity_verlet_2", "solvers/Electrostatic2D3V/ParticleSystems/ChargedParticles.hpp:integrator_1", "solvers/Electrostatic2D3V/ParticleSystems/IntegratorBorisUniformB.hpp", "solvers/Electrostatic2D3V/ParticleSystems/PoissonParticleCoupling.hpp:compute_field", "solvers/Electrostatic2D3V/Diagnostics/KineticEnergy.hpp", "solvers/Electrostatic2D3V/Diagnostics/PotentialEnergy.hpp"]}
{"id": "C92", "title": "A field has one value at each point, whoever evaluates it", "statement": "interpolate_onto_nektar_field_2d/3d always leaves the coefficients and the quadrature values of a field those of one function of its space, which only depends on the values of the given function at the quadrature points; interpolating a function of the space reproduces it. For a field in such a state with enough quadrature points for its modes, evaluating at the particles from the coefficients (FunctionEvaluateBasis) and from the quadrature values (BaryEvaluateBase) and evaluating on the host (evaluate_scalar_2d/3d) all give the value of the function with the field's coefficients, except that at a collapsed end the evaluation from coefficients stores no number. The host functions for derivatives (by point, by element and point, by element and local coordinates) give one number, that of the device. On straight-sided meshes of any shapes and orders a linear function interpolated onto a field is evaluated exactly everywhere. Host functions at a point outside of the mesh read outside of their containers. A pyramid with n >= 5 modes and fewer than 2n-3 points in the third direction (usually n+1) does not have enough points: the two device evaluators differ for some function.", "quantifier": "all fields, meshes of two and three dimensions with any mixture of shapes, orders and numbers of quadrature points, coefficients, functions, particles, selections, devices, schedules and points", "why_tests_cant": "tests compare the evaluators for a few functions and meshes at random points with tolerances; they do not cover all orders, and none has a pyramid of high order", "anchors": ["include/nektar_interface/utilities.hpp:interpolate_onto_nektar_field_3d", "include/nektar_interface/utilities.hpp:interpolate_onto_nektar_field_2d", "include/nektar_interface/utilities.hpp:evaluate_scalar_2d", "include/nektar_interface/utilities.hpp:evaluate_scalar_3d", "include/nektar_interface/utilities.hpp:evaluate_scalar_derivative_2d", "include/nektar_interface/utilities.hpp:evaluate_scalar_derivative_3d", "include/nektar_interface/utilities.hpp:evaluate_scalar_derivative_local_3d", "include/nektar_interface/function_basis_evaluation.hpp:FunctionEvaluateBasis::evaluate", "include/nektar_interface/function_bary_evaluation.hpp:BaryEvaluateBase::evaluate"]}
{"id": "C93", "title": "Reflecting walls keep the particles in the domain", "statement": "NektarCompositeTruncatedReflection: if the walls close the domain and all particles are in the domain when pre_advection is called, then after any move of any selected particles and execute, on any number of ranks and for any order of the atomic operations, all particles are in the domain: a selected particle whose step meets no wall is left as it is, any other is reflected at a hit before which its step meets no wall, and the particles not selected are untouched; no rank fails, no particle is lost. This holds for any number of calls with any exchange of the particles between ranks. A reflection at a unit normal keeps the speed and reverses the normal velocity, and the time is rewound to the time of the new position.", "quantifier": "all domains closed by walls, meshes, numbers of ranks, particles, selections, moves, orders of atomic operations and histories of calls", "why_tests_cant": "tests reflect random particles in a few boxes for some steps; a particle that tunnels through a wall for one cell arrangement, schedule or history would not be seen", "anchors": ["src/nektar_interface/particle_boundary_conditions.cpp:NektarCompositeTruncatedReflection::execute", "src/nektar_interface/particle_boundary_conditions.cpp:NektarCompositeTruncatedReflection::pre_advection", "src/nektar_interface/composite_interaction/composite_intersection.cpp:CompositeIntersection::get_intersections"]}
{"id": "C94", "title": "Every element is given to exactly one mapper, with the user's settings", "statement": "NektarGraphLocalMapper: for any mesh and any configuration of the right types the constructor succeeds, each element of the rank and each element known of other ranks is given to exactly one mapper, the one for its type and shape (or the generic one if all_generic_newton is set), a Newton mapper is only made if it has elements, and tolerances, iteration limits and the range of the grid of starting points are those of the configuration, with the documented defaults. Other dimensions are refused.", "quantifier": "all meshes of any size and mix of elements, sets of remote elements and configurations", "why_tests_cant": "tests use meshes with one or two kinds of elements and default settings; an element given to no mapper or a key that is never read shows only for particular meshes and configurations", "anchors": ["include/nektar_interface/particle_cell_mapping/map_particles_newton.hpp:MapParticlesNewton", "src/nektar_interface/particle_cell_mapping/map_particles_2d.cpp:MapParticles2D::MapParticles2D", "src/nektar_interface/particle_cell_mapping/map_particles_3d.cpp:MapParticles3D::MapParticles3D", "src/nektar_interface/particle_cell_mapping/nektar_graph_local_mapper.cpp:NektarGraphLocalMapper"]}
{"id": "C95", "title": "Periodic boundaries in floating point arithmetic", "statement": "NektarCartesianPeriodic in IEEE arithmetic: for every rounding mode, with or without fused multiply-add, the new position of a particle is in the closed domain, and it equals the old position up to whole periods and a rounding error bounded in terms of the number of periods added and the extent.", "quantifier": "all positions, origins, extents, rounding modes, precisions and ways of contracting operations", "why_tests_cant": "tests sample a few positions under one rounding mode and compiler setting; the failing positions are isolated floating point numbers", "anchors": ["src/nektar_interface/particle_boundary_conditions.cpp:NektarCartesianPeriodic"]}
{"id": "C96", "title": "The sub steps of a particle integration cover the time step in floating point arithmetic", "statement": "The neutral particle systems' integrate: in IEEE arithmetic with any rounding mode the loop of sub steps ends, all sub steps are positive and at most the particle time step, all but at most the last two are the particle time step, the loop ends at the requested time up to rounding and the sum of the sub steps is the requested time up to the rounding errors of the additions, provided the particle time step is not below the resolution of the time.", "quantifier": "all start times, end times, step sizes, rounding modes and precisions", "why_tests_cant": "an extra or a missing sub step depends on the accumulated rounding errors of one particular pair of times and steps", "anchors": ["solvers/DriftReduced/ParticleSystems/NeutralParticleSystem.hpp:integrate", "solvers/SimpleSOL/ParticleSystems/NeutralParticleSystem.hpp:integrate"]}
{"id": "C97", "title": "Candidate elements are found in floating point arithmetic", "statement": "CoarseLookupMap and the mapping kernels in IEEE arithmetic: for every rounding mode, with or without fused multiply-add, the constructor succeeds; host and kernels compute the same grid cell for a point of the domain; and the list of candidates the kernel reads for a particle contains every element whose bounding box contains the particle and its neighbourhood of 32 units of rounding, with all reads of entries that were written. Conditions: the grid cells are wider than 32 units of rounding, and coordinates are small enough (below about 2.8 million for double) for the tolerance 1.0e-8 of the grid to be 16 units of rounding.", "quantifier": "all sets of bounding boxes, points, rounding modes, precisions and ways of contracting operations, in 1D, 2D and 3D", "why_tests_cant": "a cell whose computed bounds miss a point, or an overlap rounded to zero, needs particular coordinates; tests sample few", "anchors": ["include/nektar_interface/particle_cell_mapping/coarse_lookup_map.hpp:CoarseLookupMap", "include/nektar_interface/utility_mesh_cartesian.hpp:DeviceCartesianMesh", "include/nektar_interface/bounding_box_intersection.hpp:bounding_box_intersection"]}
{"id": "C98", "title": "Projecting onto several fields at once", "statement": "FieldProject with several fields: the constructor accepts the fields exactly if they have the same expansions (ids, shapes, modes, basis types, offsets) and numbers of points as the first; what it then sets up is for each field what it would set up for that field alone; and project gives each field a result that projecting onto that field alone can give. Fields with different modes in any element are refused.", "quantifier": "all lists of fields on one mesh, all numbers of modes, all particle states and schedules", "why_tests_cant": "agreement must hold for every element of every field; a test has two fields on one mesh", "anchors": ["include/nektar_interface/function_projection.hpp:FieldProject"]}
{"id": "C99", "title": "The programs report failed runs", "statement": "A solver program returns zero exactly if MPI was set up and shut down and all phases (session, mesh, driver, run, finalise) ended without an exception; after an exception no later phase is started. For the Electrostatic2D3V program this fails for thrown strings: it prints the string and returns zero.", "quantifier": "all ways the phases end: which of them throw, and what", "why_tests_cant": "a test runs inputs that succeed; the failure can be in any phase", "anchors": ["solvers/main.cpp:main", "include/solvers/solver_runner.hpp:run_solver", "solvers/Electrostatic2D3V/Electrostatic2D3V.cpp:main"]}
{"id": "C100", "title": "Field evaluation in floating point arithmetic", "statement": "Evaluating a field at a particle with double precision: if the reference coordinates are quadrature points the result is the value at that point bit for bit, in every rounding mode, with and without fused operations; otherwise it differs from the value of the interpolating polynomial by at most an explicit multiple of 2^-52, the number of points, the Lebesgue functions and the largest value (plus a multiple of the smallest subnormal number). No intermediate value of the weights overflows or underflows if the coordinate is not closer to a quadrature point than 2^-300; next to a quadrature point at zero (distance 2^-1074) a quotient exceeds the range of double and the result is not a number.", "quantifier": "all numbers of points in one to three dimensions, all points, weights with any relative error, values, coordinates, rounding modes, with and without contraction, for the single and the interlaced versions", "why_tests_cant": "a test compares a few points with a tolerance; the error must be bounded for every coordinate, also arbitrarily close to a quadrature point", "anchors": ["include/nektar_interface/bary_interpolation/bary_evaluation.hpp:preprocess_weights", "include/nektar_interface/bary_interpolation/bary_evaluation.hpp:compute_dir_0", "include/nektar_interface/bary_interpolation/bary_evaluation.hpp:compute_dir_10", "include/nektar_interface/bary_interpolation/bary_evaluation.hpp:compute_dir_210", "include/nektar_interface/bary_interpolation/bary_evaluation.hpp:compute_dir_10_interlaced", "include/nektar_interface/bary_interpolation/bary_evaluation.hpp:compute_dir_210_interlaced"]}
{"id": "C101", "title": "Initial particles of the electrostatic solver", "statement": "When the electrostatic solver starts, the particles of all ranks have the identities 0 to n-1, each once; every particle lies in the domain; velocity, charge and mass are those of a species of the requested distribution, the electric field is zero and the first cell exists; total charge and mass are n times those of one particle (except for the two-species set up); the initial state does not depend on the number of ranks; invalid sessions create no particle. The parts which hold are proved; 'square in lower left' leaves domains away from zero, the two bands leave domains lower than 1/50, velocities depend on the number of ranks, the Maxwellian start can throw and its ring has the speed 4 vth^2.", "quantifier": "every session (key, type, velocities, box), number of particles, number of ranks and decomposition, every random number generator within its documented ranges", "why_tests_cant": "The random numbers, numbers of ranks and boxes cannot be enumerated; the failures need special boxes, rare random numbers or a comparison of runs with different numbers of ranks.", "anchors": ["solvers/Electrostatic2D3V/ParticleSystems/ChargedParticles.hpp: ChargedParticles::add_particles", "include/particle_utility/position_distribution.hpp: sobol_within_extents"]}
{"id": "C102", "title": "Units, weights and sources of the neutral particles", "statement": "The conversion factors of the SimpleSOL particles are consistent (density, velocity, time, and temperature through the gas law); the weights of the particles add up to density times volume; there are linesPerGaussian source lines for each of the one or two regions, placed symmetrically around its centre, each the rotated image of a line across the domain; the walls do not remove particles where they are created; the source of the drift-reduced particles is in the middle of the domain. Walls and the middle fail for rotated domains and for domains not starting at zero.", "quantifier": "every session (gas constant, reference values, densities, numbers of particles, region counts, widths, angles, boxes) and every point of every source line", "why_tests_cant": "The parameters are real numbers; the failures only show for angles, offsets and boxes no shipped example uses.", "anchors": ["solvers/SimpleSOL/ParticleSystems/NeutralParticleSystem.hpp: set_up_particles, wall_boundary_conditions", "solvers/DriftReduced/ParticleSystems/NeutralParticleSystem.hpp: set_up_particles, add_particles"]}
{"id": "C103", "title": "Kernel launches visit every particle once", "statement": "For every local size of the work groups, the kernels which evaluate, project and map launch work items such that every particle of the cells concerned is handled by exactly one work item and work items without a particle do nothing; the global size is the smallest multiple of the local size not below the number of particles, padding goes to the smallest multiple of the vector length; the work items of one group use disjoint parts of their local memory, inside the memory allocated, so the interleaving of their steps has no effect on their results.", "quantifier": "every list of cells, every number of particles per cell, every local size, every size of the local memory of a work item, every program of the work items and every interleaving of their steps", "why_tests_cant": "The interleavings of a work group cannot be enumerated by running the kernel; sizes are unbounded.", "anchors": ["include/nektar_interface/utility_sycl.hpp: get_global_size, pad_to_vector_length", "include/nektar_interface/function_basis_evaluation.hpp: evaluate_inner", "include/nektar_interface/function_basis_projection.hpp: project_inner", "include/nektar_interface/function_bary_evaluation.hpp: evaluate_inner", "src/nektar_interface/particle_cell_mapping/map_particles_3d_regular.cpp: map"]}
{"id": "C104", "title": "Coefficients of the Hasegawa-Wakatani systems", "statement": "Given coefficients alpha and kappa are used as they are; otherwise alpha is the ratio of the given frequencies, otherwise both follow from density, temperature, charge, ion mass, field strength and density scale length: alpha is T/(n e eta omega_ci), kappa the hybrid Larmor radius over the scale length. The set up fails exactly if a needed parameter is missing. Alpha damps (is positive) exactly if the Coulomb logarithm is positive. Kappa is false of the code unless the field strength is one.", "quantifier": "every session and every field strength", "why_tests_cant": "The parameters are real numbers and every subset of them may be defined; the wrong power of the field strength shows only for fields different from one.", "anchors": ["solvers/DriftReduced/EquationSystems/HW3DSystem.cpp: load_params", "solvers/DriftReduced/EquationSystems/HW2DSystem.cpp: load_params"]}
{"id": "C105", "title": "Ionisation in floating point arithmetic", "statement": "In every rounding mode and with every contraction of multiplications and additions, a call of ionise keeps the weight of a particle a non negative double, never lets it grow for non negative rates and densities, and gives the plasma what the particle loses up to a few rounding units of the weight. After any number of calls the sum of the weight and what the plasma has received has changed by at most that much per call. Particles are marked for removal exactly when no weight is left, if the test and the update are rounded in the same way.", "quantifier": "every rounding mode, every contraction, every particle, every sequence of step sizes, rates and densities of any length", "why_tests_cant": "Rounding errors depend on the values, the rounding mode and the compiler, and accumulate over an unbounded number of steps.", "anchors": ["solvers/SimpleSOL/ParticleSystems/NeutralParticleSystem.hpp: ionise", "solvers/DriftReduced/ParticleSystems/NeutralParticleSystem.hpp: ionise"]}
{"id": "C106", "title": "The Boris push in floating point arithmetic", "statement": "In every rounding mode and with every fusion of multiplications and additions, the computed velocity is the one of an exact Boris step for a charge and a magnetic field that differ from the given ones by a few rounding units, up to a few hundred rounding units of the speed. The bound does not depend on the strength of the field. Without an electric field the speed after n steps is the initial speed up to factors (1 +- 700 units)^n; neutral particles keep their velocity exactly.", "quantifier": "every rounding mode, every fusion, every particle, field and step size away from underflow and overflow, every number of steps", "why_tests_cant": "Rounding errors depend on the values, the rounding mode and the compiler, and accumulate over an unbounded number of steps.", "anchors": ["solvers/Electrostatic2D3V/ParticleSystems/IntegratorBorisUniformB.hpp: boris_2, ELEC_PIC_2D3V_CROSS_PRODUCT_3D"]}
{"id": "C107", "title": "The test of regular 2D elements in floating point arithmetic", "statement": "With rounding errors, in every rounding mode and with every fusion of products, each point of a parallelogram (boundary included) is accepted by its test if the tolerance is at least 150 rounding units times side^2/area (so with the default tolerance for all but very flat elements), and each point of a triangle is accepted unless it is close to the collapsed vertex; an accepted particle is in the element up to the tolerances, and the stored reference position is its own up to 140 such units. Hence a particle in the mesh is found and the program goes on.", "quantifier": "every regular element away from underflow, every position in it, every tolerance, every rounding mode and fusion of products", "why_tests_cant": "Which points are lost to rounding depends on the coordinates of the element and of the particle and on how the compiler fuses products.", "anchors": ["src/nektar_interface/particle_cell_mapping/map_particles_2d_regular.cpp: MapParticles2DRegular::map", "include/nektar_interface/particle_cell_mapping/particle_cell_mapping_common.hpp: MAPPING_DOT_PRODUCT_3D, MAPPING_CROSS_PRODUCT_3D"]}
{"id": "C108", "title": "Points of a source line on several ranks", "statement": "ParticleInitialisationLine on any number of ranks completes if all points of the line are in the domain; then each of the equidistant points (start included, end not) is stored on exactly one rank and exactly once, with the cell of an element of that rank which contains it and its reference position there. For every call of the sampler add_particles completes on all ranks; new particles are at the points whose numbers the common generator drew, each once per draw, in the cell of an element that contains them and with their reference positions, and no other particle is changed.", "quantifier": "every mesh of triangles and parallelograms covering a box, every distribution over ranks and every execution of the construction of the halos, every line in the box, number of points, partition of the points over the ranks, generator, sequence of calls and particle data", "why_tests_cant": "The points are created on one rank, moved to another, found in elements there and drawn through a common generator; which rank stores which point depends on the decomposition.", "anchors": ["include/particle_utility/particle_initialisation_line.hpp: ParticleInitialisationLine, SimpleUniformPointSampler", "solvers/SimpleSOL/ParticleSystems/NeutralParticleSystem.hpp: add_particles"]}
{"id": "C109", "title": "The potential on a grid of probes", "statement": "LineFieldEvaluations with nx times ny points on any number of ranks: the constructor completes, and after any sequence of calls of write, each step of the file has exactly one record for each box of the grid, with its index, the midpoint of the box and the value (less the mean of the field if enabled) or the derivatives of the field at the time of the call at that point. The steps are numbered by the argument of write, or consecutively if none is given. In a run of the electrostatic solvers both files have exactly the time steps that are multiples of a positive line_field_deriv_evaluations_step, with the potential of that time step.", "quantifier": "every mesh covering a box and distribution over ranks, every grid size (also empty), every sequence of calls and fields, both solvers and integrators, every number of time steps and period", "why_tests_cant": "Records are written by the rank and cell which a point was moved to; that each point appears once in each step with the right field holds for all decompositions, grids and histories of calls.", "anchors": ["solvers/Electrostatic2D3V/Diagnostics/LineFieldEvaluations.hpp: LineFieldEvaluations, write", "solvers/Electrostatic2D3V/ElectrostaticTwoStream2D3V.hpp: run", "solvers/Electrostatic2D3V/ElectrostaticElectronBernsteinWaves2D3V.hpp: run"]}
{"id": "C110", "title": "The neutral particles of SimpleSOL do not depend on the ranks", "statement": "The neutral particle system of SimpleSOL on any number of ranks, from the construction of the source lines over any number of time steps of the fluid with any number of particle sub steps: every step completes on all ranks if all source points are in the mesh and the temperature is positive. The particles of all ranks together are those of a simulation without ranks: each sub step creates the requested number of particles per source at the points that the generator selects, with the weight of new particles and no sources, moves all particles with constant velocity, removes those beyond the walls, and ionises each with the density and temperature in an element that contains it. The four projected source terms are the sums over all particles of all ranks, and particles with no weight are removed. With periodic boundaries and one sub step the total weight and the mass in the projected source balance. If the fields have one value at each position, the runs are those of the system with one list of particles (C62-C64).", "quantifier": "every mesh covering a box and distribution over ranks, every execution of the halo construction, all source lines, generator values, velocities, fields, numbers of particles, time step lengths, sub steps and time steps", "why_tests_cant": "Particles change ranks and cells in every sub step; that none is lost, created or ionised twice holds for all decompositions and histories.", "anchors": ["solvers/SimpleSOL/ParticleSystems/NeutralParticleSystem.hpp: add_particles, transfer_particles, forward_euler, ionise, integrate, project_source_terms", "solvers/SimpleSOL/EquationSystems/SOLWithParticlesSystem.cpp: v_PreIntegrate"]}
{"id": "C111", "title": "The neutral particles of DriftReduced do not depend on the ranks", "statement": "The neutral particle system of the DriftReduced solvers on any number of ranks, from empty cells over any number of time steps of the fluid with any number of particle sub steps, in a periodic domain and with a positive temperature: every step completes on all ranks. The first step creates the configured total number of particles once, with the identities 0, 1, ..., and brings each to a rank and cell of an element that contains it, whatever intermediate positions the parallel advection uses. Each sub step moves every particle once with its velocity in the periodic domain and ionises it once with the density in an element that contains it. The projected density source is the sum over the particles of all ranks, then the particles with no weight left, and only those, are removed. At all times identities are unique over all ranks; with one sub step per time step the weights and the mass given to the fluid add up to the initial weight.", "quantifier": "all numbers of ranks, decompositions of particles, random numbers, densities, basis functions, numbers of time steps and sub steps, meshes of affine elements covering a periodic box", "why_tests_cant": "tests use a few ranks and particles; a particle lost, duplicated or evaluated in a wrong element at a rank boundary for rare positions is not seen, and histories are unbounded", "anchors": ["solvers/DriftReduced/ParticleSystems/NeutralParticleSystem.hpp: add_particles, forward_euler, ionise, integrate, project_source_terms, transfer_particles, remove_marked_particles", "solvers/DriftReduced/EquationSystems/DriftReducedSystem.cpp: v_PreIntegrate"]}
{"id": "C112", "title": "A wall is not passed unnoticed in floating point arithmetic", "statement": "In double precision, with rounding after each operation: a particle that is at some time on one side of the plane of a wall and later on the other has been reported by the intersection test in a step in between. For walls across a coordinate axis this holds for every step, rounding mode, precision and choice of fused operations; the plane constructed for such a face is across the axis and displaced by at most a few roundings. For walls at an angle it holds for particles whose positions stay a few roundings away from the plane, but not in general: a particle may stop within rounding of the wall, be on the other side of it, and not be reported in the step before nor in the step after. What is reported is near: some point of the step is within rounding of the plane, and the reported point is near that point.", "quantifier": "all trajectories (sequences of positions), walls, rounding modes and fused operations", "why_tests_cant": "tests use a few generic trajectories; the failing trajectories stop within rounding of the wall", "anchors": ["include/nektar_interface/composite_interaction/line_plane_intersection.hpp: LinePlaneIntersection, line_segment_intersection", "src/nektar_interface/composite_interaction/composite_utility.cpp: get_normal_vector, get_vertex_average", "src/nektar_interface/composite_interaction/composite_intersection.cpp: find_intersections_3d"]}
{"id": "C113", "title": "The walls of all ranks are seen by the particles of every rank", "statement": "When a mesh is spread over ranks, the intersection object is built on all ranks and get_intersections is called any number of times, a particle on any rank whose step reaches a boundary face from inside of the mesh is reported, also when the face is in the mesh of another rank; it is reported once, for a face that is hit and such that no face reached from inside is nearer, with the boundary group, id and normal of this face. No call fails. The report does not depend on how elements and faces are spread over the ranks, if the faces hit are at different distances.", "quantifier": "all meshes, spreads over ranks, boundary groups, sequences of calls, particles and orders of the atomic operations", "why_tests_cant": "tests run on one or two ranks, one mesh and few particles", "anchors": ["src/nektar_interface/composite_interaction/composite_transport.cpp: CompositeTransport, collect_geometry", "src/nektar_interface/composite_interaction/composite_collections.cpp: CompositeCollections", "src/nektar_interface/composite_interaction/composite_intersection.cpp: get_intersections", "include/nektar_interface/particle_mesh_interface.hpp: claim_cells"]}
{"id": "C114", "title": "Deposited and evaluated values are accurate to rounding, in every order of the atomic additions", "statement": "In double arithmetic, whatever the compiler contracts, FunctionEvaluateBasis returns for each particle the value of the expansion, and FunctionProjectBasis adds to each degree of freedom of the element the sum over the particles of value times basis function, up to an error of a few units in the last place of the summed magnitudes per addition plus the error of the one dimensional basis values; this holds for any number of particles and every order of the atomic additions, no other entry is changed, and two runs differ by at most twice this error. The result is not the same in every order.", "quantifier": "all six shapes, numbers of modes, particles, values, coefficients, rounding modes, contractions by the compiler and interleavings of the atomic additions", "why_tests_cant": "tests compare a few runs with a tolerance; the interleaving of atomic additions is not under the control of a test", "anchors": ["include/nektar_interface/expansion_looping/quadrilateral.hpp: loop_evaluate_v, loop_project_v", "include/nektar_interface/expansion_looping/tetrahedron.hpp: loop_evaluate_v, loop_project_v", "include/nektar_interface/function_basis_projection.hpp: project_inner", "include/nektar_interface/function_basis_evaluation.hpp: evaluate_inner"]}
{"id": "C115", "title": "The recursion tables, Jacobi polynomials and modified A basis functions are accurate to rounding, and with them evaluation and projection on quadrilaterals and hexahedra", "statement": "In double arithmetic, in every rounding mode and whatever the compiler contracts, for orders n + alpha up to 10^5: every entry of the recursion tables is the exact coefficient with the relative error of two roundings, and is not finite exactly where the exact coefficient is not; JacobiCoeffModBasis::host_evaluate(n, alpha, z) returns P_n^(alpha,1)(z) up to 6 n roundings of values of magnitude 17/16 (alpha+3)^n; mod_A writes exactly its nummodes entries, and entry k is the k-th modified A function up to 6 k + 2 roundings of values of magnitude 17/16 4^(k-1), for |z| at most 9/8. Hence expansions evaluated at and projected from particles on quadrilaterals and hexahedra, computed entirely in doubles, have an explicit error, in every order of the atomic additions.", "quantifier": "all orders, alpha, points z, sizes of the tables, meshes, numbers of particles, rounding modes, contractions and orders of atomic additions", "why_tests_cant": "tests compare a few orders and points with a tolerance of 1e-10 or so; how rounding errors grow through a recursion of any length is a statement about all lengths and points", "anchors": ["src/nektar_interface/expansion_looping/jacobi_coeff_mod_basis.cpp: JacobiCoeffModBasis::JacobiCoeffModBasis, host_evaluate", "include/nektar_interface/basis_evaluation.hpp: mod_A", "include/nektar_interface/expansion_looping/basis_evaluate_base.hpp"]}
{"id": "C116", "title": "On all shapes, collapsed coordinates, basis functions, evaluation and projection are accurate to rounding at every position that is not at the collapsed end", "statement": "In double arithmetic, in every rounding mode and whatever the compiler contracts, for up to 20000 modes: for every reference position in the element (triangle, quadrilateral, hexahedron, prism, pyramid, tetrahedron) whose coordinates are doubles and that is not exactly at the collapsed end, the computed collapsed coordinates have the error of eleven roundings, mod_A, mod_B, mod_C and mod_PyrC fill the local spaces with finite numbers that are the exact values up to 17 n roundings of values of magnitude 4^n (quadrilaterals, hexahedra) or (2n+2)^n (triangles, prisms, tetrahedra), for pyramids 34 n roundings of values of magnitude (4n)^(2n), and expansions evaluated at or projected from such particles have an explicit error, for every order of the atomic additions. False of the code for tetrahedra: rounding to nearest, the position (-1, 1/2 - 2^-54, -1/2) is inside and not at the collapsed end, but its collapsed coordinate is rounded to exactly 1 and mod_B divides by zero, for every number of modes; so all degrees of freedom of the cell can become NaN. Proved for tetrahedra for positions whose second collapsed coordinate is at most 1 - 2^-46, or whose computed one is not 1.", "quantifier": "all shapes, positions, meshes, numbers of modes and of particles, rounding modes, contractions, tolerances of the guards and orders of atomic additions", "why_tests_cant": "the values next to the collapsed edge that are rounded onto it are a few of 2^64 doubles, and no test samples them; the accuracy claim ranges over all positions, orders and compilers", "anchors": ["include/nektar_interface/coordinate_mapping.hpp: loc_coord_to_loc_collapsed_v", "include/nektar_interface/basis_evaluation.hpp: mod_B, mod_C, mod_PyrC", "include/nektar_interface/expansion_looping/basis_evaluate_base.hpp: prepare_per_dim_basis"]}
{"id": "C117", "title": "In double arithmetic constants are evaluated to their value and projections deposit the total charge, up to an explicit error, on all shapes", "statement": "In every rounding mode, whatever the compiler contracts, for 2 to 20000 modes and for particles with reference positions that are doubles inside the element, not at the collapsed end (for tetrahedra not within 2^-46 of the collapsed edge): a field whose value is b at all vertices of the element evaluates at every particle to b up to an explicit bound on the rounding error; after any list of particles has deposited by the projection, in any order of the atomic additions of all particles, the pairing of the degrees of freedom of the element with the constant function one has increased by the sum of the deposited values, up to an explicit bound that is proportional to the sum of their magnitudes and zero when rounding is exact.", "quantifier": "all shapes, numbers of modes, particles, values, positions, rounding modes, contractions and orders of atomic additions", "why_tests_cant": "tests compare a total with a hand-picked tolerance for one mesh and one seed; the bound is for all positions, orders of additions and compilers", "anchors": ["include/nektar_interface/expansion_looping/basis_evaluate_base.hpp: prepare_per_dim_basis", "include/nektar_interface/expansion_looping/jacobi_coeff_mod_basis.hpp", "include/nektar_interface/function_basis_projection.hpp: FunctionProjectBasis::project", "include/nektar_interface/function_basis_evaluation.hpp: FunctionEvaluateBasis::evaluate"]}
{"id": "C118", "title": "In double arithmetic a position bound to a straight-sided element by the Newton mapping lies in it, up to the tolerances and rounding errors", "statement": "In every rounding mode, whatever products the compiler contracts with additions, with any starting points, any Newton steps and any number of iterations (also if they produce infinities or NaN): if the Newton mapping accepts a particle for a quadrilateral, hexahedron, prism, pyramid or tetrahedron with straight sides, with coordinates of vertices and particle of magnitude at most M, then the stored reference position consists of finite numbers, is in the reference element enlarged by five times the tolerance of the collapsed coordinates plus 2^-42, and the exact map of the element takes it to the position of the particle up to the tolerance divided by the scaling of the residual plus 2^-42 M in each direction (2^-37 M for pyramids). A pyramid also accepts a particle within the tolerance kNekZeroTol of the apex with a reference position within that tolerance of the apex; a reference position with third coordinate 1 is not accepted otherwise.", "quantifier": "all rounding modes and contractions, all vertices, positions, scalings, tolerances, starting points and Newton iterations", "why_tests_cant": "A test maps some particles in some elements; that an accepted position is right for all elements, also badly shaped ones and near the apex of pyramids where the residual divides by a small number, and with NaN in the iterations, needs a bound on the rounding errors for all inputs.", "anchors": ["include/nektar_interface/particle_cell_mapping/generated_linear/quadrilateral.hpp", "include/nektar_interface/particle_cell_mapping/generated_linear/hexahedron.hpp", "include/nektar_interface/particle_cell_mapping/generated_linear/prism.hpp", "include/nektar_interface/particle_cell_mapping/generated_linear/pyramid.hpp", "include/nektar_interface/particle_cell_mapping/generated_linear/tetrahedron.hpp", "include/nektar_interface/particle_cell_mapping/newton_pyr.hpp: newton_residual_v", "include/nektar_interface/particle_cell_mapping/x_map_newton_kernel.hpp: XMapNewtonKernel::x_inverse", "include/nektar_interface/particle_cell_mapping/map_particles_newton.hpp: map_initial, map_final"]}
{"id": "C119", "title": "A particle whose position is NaN in some direction is not bound to a cell by the mappers", "statement": "If a coordinate of the position of a particle is NaN, the Newton mapping of quadrilaterals, prisms, pyramids and tetrahedra and the tests of regular elements in two and three dimensions, on the device and on the host, reject every candidate cell, so that the particle is reported as lost, not bound to a cell with a reference position that has nothing to do with it.", "quantifier": "all elements, positions with NaN, rounding modes, contractions, starting points and Newton steps", "why_tests_cant": "Tests use particles with valid positions; a NaN appears in a run after a division by zero elsewhere, and the combinations of NaN directions, elements and starting points are unbounded.", "anchors": ["include/nektar_interface/particle_cell_mapping/newton_relative_exit_tolerances.hpp: get_relative_error_2d, get_relative_error_3d", "include/nektar_interface/particle_cell_mapping/newton_quad.hpp: newton_residual_v", "include/nektar_interface/particle_cell_mapping/x_map_newton_kernel.hpp: XMapNewtonKernel::x_inverse", "include/nektar_interface/particle_cell_mapping/map_particles_newton.hpp: map_initial, map_final", "src/nektar_interface/particle_cell_mapping/map_particles_3d_regular.cpp: MapParticles3DRegular::map", "src/nektar_interface/particle_cell_mapping/map_particles_2d_regular.cpp: MapParticles2DRegular::map", "include/nektar_interface/particle_cell_mapping/particle_cell_mapping_common.hpp: get_local_coords_2d, contains_point_2d"]}
{"id": "C120", "title": "The test of regular elements in three dimensions finds every particle despite rounding errors", "statement": "In double arithmetic, for every rounding mode and whichever products the compiler fuses, the test of affine hexahedra, prisms, pyramids and tetrahedra on the device accepts every position in the element; the stored reference position is that of the particle up to a multiple of the rounding error relative to the shape of the element, and an accepted position is in the element enlarged by the tolerances and the rounding errors; the test never divides by zero.", "quantifier": "all affine elements and positions with coordinates in a box between 1e-90 and 1e90, all tolerances, rounding modes and contractions", "why_tests_cant": "A test samples positions; whether a position near a face is found depends on the last bits of all coordinates, on the shape of the element, and on what the compiler fuses.", "anchors": ["src/nektar_interface/particle_cell_mapping/map_particles_3d_regular.cpp: MapParticles3DRegular::map", "include/nektar_interface/coordinate_mapping.hpp: loc_coord_to_loc_collapsed_3d", "include/nektar_interface/particle_cell_mapping/map_particles_3d_regular.hpp: MapParticles3DRegular/tol"]}
{"id": "C121", "title": "The normals at which particles are reflected are unit normals to rounding", "statement": "In double arithmetic, for every rounding mode and whichever products the compiler fuses, the normal which is computed for a boundary line is the exact unit normal of the line up to a few rounding errors, and that of a flat boundary face is the exact unit normal up to a few rounding errors divided by the sine of the angle between its edges. Both have the length one up to a few rounding errors, so that after any number of reflections the speed is the initial speed up to a factor (1 +- a few rounding errors) per reflection, and each reflection turns the velocity away from the wall.", "quantifier": "all lines and faces with lengths between 1e-120 and 1e75 and angles with a sine above 1e-12, all rounding modes and contractions, all velocities and sequences of reflections", "why_tests_cant": "A test computes some normals; a bound on the drift of the energy of particles over arbitrarily many reflections at arbitrary walls needs all of them.", "anchors": ["src/nektar_interface/composite_interaction/composite_utility.cpp: get_normal_vector", "include/nektar_interface/composite_interaction/line_line_intersection.hpp: LineLineIntersection", "include/nektar_interface/composite_interaction/line_plane_intersection.hpp: LinePlaneIntersection", "src/nektar_interface/particle_boundary_conditions.cpp: NektarCompositeTruncatedReflection::execute"]}
{"id": "C122", "title": "The potential solves the documented equation for the vorticity", "statement": "In every stage of every time step the potential from which the drift velocities are computed solves the equation in the documentation: the Laplacian across the magnetic field of the potential is the vorticity for the Hasegawa-Wakatani and Rogers-Ricci systems (also in three dimensions), n_ref m / B^2 times it is the vorticity for LAPD, and in the drift plane the full Laplacian of the potential plus the ion pressure is B^2 times the vorticity.", "quantifier": "all meshes and discretisations (second derivatives as arbitrary operators), all values of the vorticity, all sessions (which of the coefficients are set), all solvers that return a solution when there is one", "why_tests_cant": "The example sessions set the coefficients; what is solved for the sessions that do not, and for all fields, is not visible in any one run.", "anchors": ["solvers/DriftReduced/EquationSystems/DriftReducedSystem.cpp: solve_phi, load_params", "solvers/DriftReduced/EquationSystems/HWSystem.cpp: get_phi_solve_rhs", "solvers/DriftReduced/EquationSystems/LAPDSystem.cpp: get_phi_solve_rhs", "solvers/DriftReduced/EquationSystems/RogersRicci2DSystem.cpp: get_phi_solve_rhs", "solvers/DriftPlane/EquationSystems/DriftPlaneSystem.cpp: solve_phi"]}
{"id": "C123", "title": "The recorded energies and masses are accurate to rounding, in every order of the additions", "statement": "The kinetic energy, the potential energy and the mass of the particles that are written are the exact sums over all particles of all ranks up to rounding errors, whichever order the device and MPI add in, for every rounding mode and whichever products the compiler fuses; two runs with other orders or other numbers of ranks agree up to rounding errors. The recorded relative mass error is the exact one up to rounding errors, so it is at most a few rounding errors per addition if the simulation conserves mass.", "quantifier": "all numbers of particles, velocities, charges, weights and potentials; all orders and groupings of the additions; all rounding modes and contractions", "why_tests_cant": "The order of atomic additions is chosen by the device at run time and the number of orders is exponential; a test sees one of them.", "anchors": ["solvers/Electrostatic2D3V/Diagnostics/KineticEnergy.hpp: compute", "solvers/Electrostatic2D3V/Diagnostics/PotentialEnergy.hpp: compute", "solvers/DriftReduced/Diagnostics/MassRecorder.hpp: compute, compute_particle_mass", "solvers/SimpleSOL/Diagnostics/MassRecording.hpp: compute, compute_particle_mass"]}
{"id": "C124", "title": "The points of a source line and the probes lie in the domain, in double arithmetic", "statement": "If a domain contains the line between two ends, it contains the points that are computed on that line in double arithmetic (a point outside of the mesh is found in no element and stops the program). Each point is the exact one up to a few rounding errors, the first one is the start of the line, and they are in the order of their indices. The probes of the potential are the middles of the cells of the grid up to a few rounding errors, and strictly inside of the domain.", "quantifier": "all ends, all numbers of points that fit in an int, all points, all rounding modes and contractions", "why_tests_cant": "Whether the last digit of a point is on the wrong side of the boundary depends on the ends and the number of points; a test tries a few of them.", "anchors": ["include/particle_utility/particle_initialisation_line.hpp: ParticleInitialisationLine", "solvers/Electrostatic2D3V/Diagnostics/LineFieldEvaluations.hpp: LineFieldEvaluations"]}
{"id": "C125", "title": "Velocity Verlet in double arithmetic: trajectories and time reversal", "statement": "After any number n of time steps the computed position and velocity of a charged particle are those of the velocity Verlet method with the same fields at the particle, up to 2n+6 roundings relative to the largest position and velocity the fields allow (and underflow). If the velocity is turned around after n steps and the fields are met in the opposite order, n more steps lead back to the start with the opposite velocity, up to 4n+6 roundings; in exact arithmetic this holds without error. Without a field, or for a particle without charge, the velocity does not change in any digit over any number of steps.", "quantifier": "all numbers of steps, all fields, time steps, charges, masses and initial states, all rounding modes and contractions", "why_tests_cant": "The errors of the steps add up; a test runs a given number of steps with a given field.", "anchors": ["solvers/Electrostatic2D3V/ParticleSystems/ChargedParticles.hpp: velocity_verlet_1, velocity_verlet_2", "solvers/Electrostatic2D3V/ElectrostaticTwoStream2D3V.hpp: run"]}
{"id": "C126", "title": "Oscillations keep their amplitude exactly below the limit of the time step", "statement": "A charged particle in a restoring field (such as a particle of a cold plasma displaced from its place of rest) is advanced by the velocity Verlet integrator. If the time step is less than two over the frequency of the oscillation, it stays within its amplitude, never crosses the boundary of the domain and its energy stays within fixed factors of the initial one, over any number of steps. It is then where an exact harmonic oscillation is that advances by 2 arcsin(frequency dt / 2) in each step. If the time step is two over the frequency or more, a particle that starts at its place of rest with any speed, however small, crosses the boundary of the domain in at most as many steps as it would need without a field.", "quantifier": "all frequencies, time steps, amplitudes, domains, numbers of steps and of other particles, both directions", "why_tests_cant": "A slow growth of the amplitude is not visible in the steps of a test, and the limit of the time step cannot be seen from single runs.", "anchors": ["solvers/Electrostatic2D3V/ParticleSystems/ChargedParticles.hpp: velocity_verlet_1, velocity_verlet_2, transfer_particles", "solvers/Electrostatic2D3V/ElectrostaticTwoStream2D3V.hpp: run"]}
{"id": "C127", "title": "Gyration and drift of the Boris integrator are exact for any time step", "statement": "In constant electric and magnetic fields the Boris integrator keeps the magnitude of the velocity across the magnetic field relative to the drift velocity E x B / B^2, and accelerates the particle along the magnetic field as in the exact motion. In a magnetic field across the plane of the simulation there is a centre that moves with exactly the drift velocity and from which the particle has the same distance after every step: the exact radius of gyration, but for the half step by which positions and velocities are apart. A particle with the drift velocity moves in a straight line. All this holds for any number of steps of any size.", "quantifier": "all fields, charges, masses, time steps, numbers of steps and initial states", "why_tests_cant": "Statements about trajectories of any length for any time step; a test follows some trajectory for a while and compares up to the error of the method.", "anchors": ["solvers/Electrostatic2D3V/ParticleSystems/IntegratorBorisUniformB.hpp: boris_2", "solvers/Electrostatic2D3V/ElectrostaticTwoStream2D3V.hpp: run"]}
{"id": "C128", "title": "The choice between the two integrators does not matter without a magnetic field", "statement": "Without a magnetic field the Boris integrator and velocity Verlet compute the same positions after every step, for any number of interacting particles, any potential and across the periodic boundaries; the velocities of Boris are those of half a step earlier. So a session may choose either with the same result.", "quantifier": "all particle systems, potentials that are functions of positions and charges, time steps, numbers of steps", "why_tests_cant": "A statement about two programs for all fields and numbers of steps; a test compares one trajectory up to a tolerance that hides differences of the order of the method.", "anchors": ["solvers/Electrostatic2D3V/ElectrostaticTwoStream2D3V.hpp: run, integrator_1, integrator_2", "solvers/Electrostatic2D3V/ParticleSystems/ChargedParticles.hpp: velocity_verlet_1, velocity_verlet_2, boris_2, add_particles", "solvers/Electrostatic2D3V/ParticleSystems/IntegratorBorisUniformB.hpp: boris_1, boris_2"]}
{"id": "C129", "title": "Uniform motion and uniform acceleration are exact", "statement": "With velocity Verlet a particle whose field is constant follows the parabola of the uniformly accelerated motion in position (up to periods of the domain) and velocity, over any number of steps of any size and whatever the other particles do; a particle without charge moves in a straight line in every field.", "quantifier": "all initial states, fields, other particles, time steps, numbers of steps, both directions", "why_tests_cant": "Trajectories of any length for any time step; the error of the start is of the order of the tolerance of a test.", "anchors": ["solvers/Electrostatic2D3V/ParticleSystems/ChargedParticles.hpp: velocity_verlet_1, velocity_verlet_2, transfer_particles, add_particles", "solvers/Electrostatic2D3V/ElectrostaticTwoStream2D3V.hpp: run"]}
{"id": "C130", "title": "The computed motion preserves volumes in phase space", "statement": "In the electrostatic particle solver a step of velocity Verlet acts on positions and velocities of all particles together as a map of phase space that preserves volumes (Liouville's theorem holds for the computed motion), over any number of steps, so that the density in phase space is carried along and particles do not gather spuriously.", "quantifier": "all numbers of particles, measurable fields with which they interact, charges, masses, time steps, numbers of steps and sets of initial states", "why_tests_cant": "A statement about the volume of every measurable set of initial states in a space whose dimension is four times the number of particles.", "anchors": ["solvers/Electrostatic2D3V/ParticleSystems/ChargedParticles.hpp: velocity_verlet_1, velocity_verlet_2, transfer_particles", "solvers/Electrostatic2D3V/ElectrostaticTwoStream2D3V.hpp: run"]}
{"id": "C131", "title": "The Boris integrator preserves volumes in phase space", "statement": "In the electrostatic particle solvers a time step with the Boris integrator acts on the positions and the three velocity components of all particles together as a map of phase space that preserves volumes, over any number of steps, with all particles interacting through the potential, in any uniform magnetic field.", "quantifier": "all numbers of particles, potentials with measurable gradient, magnetic fields, charges, masses, time steps, numbers of steps and sets of initial states", "why_tests_cant": "A statement about the volume of every measurable set of initial states in a space whose dimension is five times the number of particles.", "anchors": ["solvers/Electrostatic2D3V/ParticleSystems/IntegratorBorisUniformB.hpp: boris_2", "solvers/Electrostatic2D3V/ParticleSystems/ChargedParticles.hpp: transfer_particles", "solvers/Electrostatic2D3V/ElectrostaticTwoStream2D3V.hpp: integrator_2, run"]}
