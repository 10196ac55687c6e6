# Formal model of NESO in Lean 4 — design

## Layout

* `lean/Verif/Model/*.lean` — the model: total functions transcribed from `/repo`, each with a
  comment citing file and lines and naming its simplifications.
* `lean/Verif/Spec/*.lean` — small, independent specifications (what an overlap, an interpolant, a
  Jacobi polynomial, ... *is*), written without the model's helpers.
* `lean/Verif/Props/*.lean` — the property theorems and, beside each, an `example` showing that a
  concrete non-trivial case meets the hypotheses.  Helper lemmas live in `lean/Verif/Lemmas/*.lean`
  or at the head of the model file.

## Trusted base

* Lean 4.33.0's kernel. Axioms: at most `propext`, `Classical.choice`, `Quot.sound`.
* Faithfulness of the transcription C++ -> Lean (by reading; the code is never run here).
* Numbers: C++ `double`/`REAL` values are modelled by an arbitrary linear ordered field (usually a
  type variable `K`, instantiated at `ℚ` in examples, or `ℝ` where derivatives occur).
  **Rounding, overflow to infinity and NaN are not modelled**, except where a property is about them: C95 onwards where stated model
  rounding by an arbitrary IEEE rounding mode (Spec/Rounding.lean), still without overflow and NaN; elsewhere
  division by zero is an explicit error outcome. C++ `int`/`INT`/`size_t` are `Int`/`Nat`
  without overflow. Out-of-bounds access and reads of uninitialised memory are explicit
  error outcomes (`none`) wherever the code could do one.
* External code — Nektar++, NESO-Particles, SYCL, MPI, HDF5, std:: — is modelled by its contract only,
  as function parameters or plain data: sums/min/max reductions over a list of ranks, atomic adds as addition in an
  arbitrary order, etc.

## Where the code violates the property

Recorded below under each property as **Finding**. In such cases the negation is proved with a
concrete witness, and a theorem with suffix `_partial` states what does hold.

## Plan per property
* **C01** Bounding box overlap is the true overlap volume. Model: `bounding_box_intersection` as a fold over dims. Spec: interval intersection length = max 0 (min ub - max lb) and set-theoretic interior intersection. Proof: case analysis + induction on dims.
* **C02** Bounding box set query has no false negatives or positives. Model: reset/expand/interval_intersect/bounding_box_intersect/`intersects`. Spec: ∃ box, ∀ d, closed intervals meet as sets. Proof: induction on the list of boxes.
* **C03** Cell id translation is a bijection. Model: construct_maps on the sorted id list, table with uninitialised entries as `Option`. Proof: induction / list lemmas.
* **C04** NESO cell to Nektar++ expansion mapping is consistent. Model: two maps composed, `.at` fails explicitly. Proof from distinctness of geometry ids.
* **C05** ParameterStore behaves as a typed map with override. Model: association map of typed values, op histories; refinement to `String → Option Value`.
* **C06** Cartesian mesh lookup is in bounds, bijective and geometrically right. Model: get_cell_in_dimension (trunc + clamp), linear index, bounding box. Proof: floor lemmas, div/mod.
* **C07** Collapsed coordinate maps are mutually inverse. Model: six maps with guard. Proof: `field_simp`/`ring` with the guard inactive; dispatch by cases.
* **C08** Collapsed coordinates characterise the reference element. Spec: reference elements as inequalities in ξ. Proof: sign analysis.
* **C09** clamp_loc_coords clamps every coordinate. Model with `||` short-circuit. **Finding** expected: later coordinates are not clamped once an earlier one was. Negation + partial.
* **C10** Precomputed Jacobi coefficients give the Jacobi polynomials. Model: coefficient tables with stride; host_evaluate recurrence; `jacobi`. Spec: explicit sum. Proof: three-term recurrence from the explicit sum, coefficientwise.
* **C11** Device 1D modified basis kernels equal the reference basis. Model: mod_A.. as loops writing to a list with explicit order. Spec: reference eval_mod*. **Finding** expected: mod_B divides by b0 (z=1). Proof: induction on modes.
* **C12** Basis kernels write each mode once and stay in bounds. Same models; lengths. Proof: induction.
* **C13** Field evaluation kernels equal the reference expansion. Model: six looping kernels over lists. Spec: Σ dof·eval_modes. Proof: sums over nested ranges.
* **C14** Projection is the exact transpose of evaluation. Model: loop_project. Proof: swap of finite sums, permutation invariance of sums.
* **C15** Barycentric interpolation is polynomial interpolation. Model: preprocess_weights & compute_dir. Spec: Lagrange interpolation (Mathlib). Proof: Lagrange barycentric lemmas.
* **C16** Blocked and interlaced Bary evaluation equals the scalar evaluation. Model: blocked & interlaced variants. Proof: lane-wise equality.
* **C17** SYCL launch size padding. Model: integer formulae. Proof: `omega`/div lemmas.
* **C18** Packed 2D geometry round trip. Model: push/pop on byte/word lists. Proof: round-trip induction.
* **C19** Unpacking rejects truncated buffers. Model: reader with bounds check as in code. **Finding** expected: check does not prevent over-read. Negation + partial.
* **C20** 3D geometry deconstruct/reconstruct round trip. Model: flat int list. Proof: induction.
* **C21** Remote geometry serialisation round trip. Model: serialise/deserialise. Proof: induction.
* **C22** Geometry container classification is a partition. Model: classification fold. Proof: induction/permutation.
* **C23** Halo stencil covers exactly the required neighbours. Model: offsets and pbc arithmetic. Proof: modular arithmetic.
* **C24** Cell claim weights keep the largest claim. Model: claim as map update. Proof: induction over history; permutation invariance.
* **C25** Mesh tuple to mesh hierarchy tuple conversion is a bijection. Model: div/mod. Proof: `Int.emod`/`Nat` lemmas.
* **C26** Every mesh hierarchy cell an element touches is claimed. Model: bounding_box_map index ranges, overlap, weight. Proof: floor lemmas.
* **C27** Periodic boundary maps into the domain without changing the point modulo the period. Model: trunc & fmod over an ordered field. **Finding** expected: fails for extent < 1 . Negation + partial for extent ≥ 1.
* **C28** Periodic domain extents are the mesh bounding box. Model: min/max fold with numeric_limits::min() initial. **Finding** expected: wrong for all-negative coordinates.
* **C29** Composite collection is idempotent and cumulative. Model: set-based collect over request history. Proof: induction.
* **C30** Line/plane intersection is exact. Model: transcription. Spec: ∃ t ∈ [0,1]. Proof: field arithmetic.
* **C31** point_near_to_geom never rejects a point of the geometry. Model: mean, max squared distance. Spec: convex combination. Proof: convexity of squared distance.
* **C32** Trajectory intersection reports the nearest hit. Model: running minimum over candidates, two passes. Proof: induction.
* **C33** The cells examined along a step were collected. Model: integer boxes. Proof: min/max inequalities.
* **C34** Coarse lookup returns every candidate element. Model: add_geom_to_map. **Finding** expected at upper boundary. Negation + partial for interior points.
* **C35** Device lookup index agrees with the host and is in bounds. Model: kernel index arithmetic. Proof: equality with host function and bound.
* **C36** Newton inversion is sound and terminates. Model: loop with fuel for an arbitrary map. Proof: induction on fuel.
* **C37** Newton exit tolerance residual is a non-negative norm. Model: scaling. **Finding** expected: negative average Jacobian. Negation + partial.
* **C38** Generated linear element maps and Newton steps are exact. Model: transcription of generated code with y-temporaries. Spec: vertex-interpolating shape functions and `HasDerivAt`. Proof: ring/field_simp.
* **C39** Affine elements are inverted in one Newton step. Corollary of 38 style computations.
* **C40** Regular element containment test is exact. Model: get_local_coords_2d and 3D. Spec: affine image of the reference element. Proof: linear algebra by field_simp.
* **C41** Embedded triangle and quad inversion. Model: transcription. Proof: ring.
* **C42** Element bounding boxes contain the element. Model: sampled faces. Proof: multilinear functions attain extremes at vertices.
* **C43** Field index map. Model: map built by fold. Proof: induction.
* **C44** find_owning_geom finds the owner. Model: loop over candidates & min reduction. **Finding** expected: earlier hit overwritten by later miss. Negation + partial.
* **C45** uniform_within_elements gives exactly the requested samples. Model: rejection sampling over a stream with trial limit. Proof: induction on fuel.
* **C46** Distributed line and point sampling partition the points. Model: get_decomp_1d, exclusive scan. Proof: interval partition.
* **C47** R-sequence positions stay in the domain. Model: frac(i*irr + seed)*extent. Proof: fract lemmas. Negative seed excluded (negation).
* **C48** HDF5 writer steps and error detection. Model: step counter and check macro. **Finding** expected: errors never detected. Negation + partial.
* **C49** Solver callbacks run once per step in registration order. Model: handler state, op histories. Proof: induction.
* **C50** Implicit helper residual and matrix-free product. Model: flatten/unflatten; residual; Jv. Proof: algebra.
* **C51** Boris push conserves energy in a pure magnetic field. Model: boris_2 over a field. Proof: ring/field_simp; induction over steps.
* **C52** parse_equals splits name = value lines. Model: parse over List Char. Proof: list lemmas.
* **C53** Session parameter and info lookups are case-insensitive maps. Model: assoc maps with toUpper. **Finding** expected: get_info looks up the raw name.
* **C54** Particle species/boundary/reaction sections are read faithfully. Model: reading of the attribute trees. **Finding** expected: missing SPECIES.
* **C55** Particle mapping never disturbs mapped particles. Model: chain of mappers over particle lists. Proof: induction.
* **C56** Ring exchange of 2D geometries on every schedule. Model: interleaving semantics of MPI (`Model/Mpi.lean`: programs per rank, channels, ANY_SOURCE, barriers, one-int windows) and the loop of `get_all_remote_geoms_2d` as such a program. Proof: assume/guarantee rule (`Lemmas/Mpi.lean`) with a history of phases, giving safety, deadlock freedom and termination.
* **C57** Halos of a 2D mesh. Model: `Model/HaloExchange.lean` (claims → send ranks → counts through a window → sizes by ANY_SOURCE → packed buffers by named receives) as programs of `Model/Mpi.lean`. Proof: `Lemmas/MpiRounds.lean` (protocols given by lists of phases), C18 for the codec, C26 for the claims. Assumed: owners are consistent and exist for claimed cells; buffer sizes fit in `int`.
* **C58** Extension of the halos of a 2D mesh. Model: `Model/HaloExtension.lean` (requested cells of C23 → owners → counts through a window → cell lists → geometries of the cells → packed buffers → unpack without duplicates), after the constructor of C57, for any list of calls. Proof: each call is a block of eight phases (`Lemmas/MpiBlocks.lean` for sequences of blocks); the state of the ranks between calls is known up to the order of the halos.
* **C59** A position bound by the Newton mapping lies in the element. Model: `Model/NewtonKernel.lean`, `Model/NewtonElements.lean`, `Model/CoordMap.lean` (shared with C36–C39). Proof: the acceptance test of C36, the residual of C37/C38 read back as a distance, and the enlarged collapsed cube mapped into the enlarged reference element (monotone bounds on the products).
* **C60** Halos of a 3D mesh. Model: `Model/HaloExchange3D.lean` (the 2D exchange of the triangular and of the quadrilateral faces, then the integers of the elements with sizes by ANY_SOURCE and buffers by named receives, then the reconstruction of C20) as programs of `Model/Mpi.lean`. Proof: three blocks of phases (`Lemmas/MpiBlocks.lean`), C18/C20 for the codecs, C26 for the claims.
* **C61** Extension of the halos of a 3D mesh. Model: `Model/HaloExtension3D.lean` (the cells of C58, then the sets of elements and of their faces per requesting rank, the exchange of the faces as in 2D, the rebuilt map of faces, the integers of the elements, the unpacking without duplicates), after the constructor of C60, for any list of calls. Proof: a call is a block of ten phases; the invariant between calls is that the faces a rank holds are exactly those of the remote elements it holds, so that each received element can be rebuilt.
* **C62** Ionisation kernels. Model: `Model/Ionisation.lean` (both kernels, the rate, Barry's approximation of E1). Proof: the argument of the logarithm is above one for every positive x (`Lemmas/Barry.lean`: numerical bounds on exp(-γ), then monotone estimates), algebra for conservation; finding: negative densities grow weights.
* **C63** Sub steps. Model: `Model/NeutralSystem.lean` (`integrate` of both systems with its `while` loop as a well-founded recursion, `v_PreIntegrate`). Proof: induction on the number of remaining steps.
* **C64** Mass balance. Model: `Model/NeutralSystem.lean` (particles of all ranks as one list; fields, sampled points and the periodic map are arbitrary functions per sub step). Proof: C62 summed over the particles, invariant `Clean`, induction over fluid steps. Findings: the source properties are overwritten in every sub step, so that with m > 1 sub steps the fluid gains m times the loss of the last one; in a uniform plasma every fluid step then destroys mass.
* **C65** Set up and neutrality of the electrostatic solver. Model: `Model/Electrostatic.lean` (constructor arithmetic, coupling constructor, neutralisation, scaling, solve as arbitrary functions of a discrete space with quadrature weights). Proof: algebra; Cauchy-Schwarz for the bound; double sums for the Galerkin projection.
* **C66** Velocity Verlet. Model: `Model/Electrostatic.lean` (both kernels, periodic map of C27, main loop over an arbitrary field function). Proof: closed form of a step, uniqueness of representatives modulo the periods, induction over the steps. Findings: zero field in the first half kick.
* **C67** Diagnostics. Model: `Model/Electrostatic.lean`. Proof: algebra on quadrature sums; list product for the sample points. Findings: kinetic energy ignores the particle masses; distribution 0 scales the origin.
* **C68** Particle counts, output schedule, identities. Model: `Model/PartSys.lean`. Proof: induction over histories and ranks; `get_decomp_1d` is a contract with an instance. Findings: `num_parts_tot` unassigned; SimpleSOL identities not unique.
* **C69** Fields of the equation systems. Model: `Model/EqnSys.lean` (index map, validation, order checks, sources). Proof: position of names in duplicate-free lists. Findings: order of variables unchecked in HW, LAPD, SimpleSOL; missing source fields stop the run; Rogers-Ricci refuses all sessions with particles.
* **C70** Drift and advection velocities. Model: `Model/DriftFluid.lean`. Proof: vector algebra over the reals. Findings: `Bvec[2]` out of bounds for two space dimensions, `Bxy = 0` not rejected, polarisation drift has the wrong sign for `Bxy < 0`.
* **C71** Balances of the DriftReduced systems. Model: `Model/DriftFluid.lean`. Proof: derivative of quadratic functionals along solutions, Galerkin identities as hypotheses with an instance. Findings: stale density in HW2D, recorder ignores particles and divides by zero for step 0, LAPD ignores particle sources.
* **C72** Diffusion solver. Model: `Model/Diffusion.lean`. Proof: trigonometric algebra, energy method for backward Euler, induction over steps. Findings: CWIPI sender out of bounds with matrix-free collections; a matrix-free receiver uses the first value only.
* **C73** Drift plane. Model: `Model/PlaneFluid.lean`. Proof: algebra, derivative of sums. Finding: flux depends on the orientation of the trace at zero normal velocity.
* **C74** SimpleSOL fluxes and sources. Model: `Model/PlaneFluid.lean`. Proof: algebra; Gaussian integral of Mathlib.
* **C75** Construction of the mesh hierarchy. Model: `Model/MeshConstruct.lean` (bounding boxes per rank, reductions, extents, coarse cells). Proof: least and greatest elements of folds, ceilings; connects with C26 (claims).
* **C76** Subdivision order. Model: `Model/MeshConstruct.lean`. Proof: logarithm and exponential inequalities. Finding: natural logarithm instead of base two, hierarchy too coarse by an unbounded factor.
* **C77** Point in the subdomain. Model: `Model/MeshConstruct.lean`. Proof: case analysis, convex combinations.
* **C78** Projection onto fields. Model: `Model/FieldCoupling.lean` (constructor tables, launches per shape, work items, local memory regions, atomic additions as all orders, host implementation). Specification: `Spec/FieldCoupling.lean`. Proof: sums over work items by induction, C13/C14 for one element, permutation invariance. Findings: host implementation stops with extra coordinates; missing geometries use expansion 0.
* **C79** Evaluation at particles. Model and specification as C78. Proof: each stored value from C13, untouched entries by induction, adjointness by exchanging sums.
* **C80** Derivatives and quadrature point functions at particles. Model: `Model/BaryField.lean` (constructor with its cache and check, interlacing, the three kernels, stores in every order). Specification: `Spec/BaryField.lean`. Proof: invariant of the constructor, C15/C16 for one particle or block, address lemma for stores.
* **C81** Curved 3D elements. Model: `Model/Generic3D.lean` (write_data with pointers into one buffer, weights in local memory, interlaced arrays, Cramer's rule) and `Model/NewtonMemory.lean` (iteration with local memory). Specification: `Spec/Generic3D.lean`. Proof: refinement of a memoryless iteration; polynomial elements by the closure of the space under derivatives and uniqueness of interpolation.
* **C82** XMapNewton. Model: `Model/NewtonMemory.lean` (`hostInverse`, `xMapM`). Proof: the search refines C36's test of the starting points; C39 for affine elements.
* **C83** make_hex_geom. Model: `Model/HexGeom.lean` (tables, loops and the id counter). Specification: `Spec/HexGeom.lean` (points on lines and parallelograms, corners of a face determined by its edges). Proof: tables by cases on the edge or face number, list lemmas for every number of modes. Finding: curves of the faces 1 and 4 leave the cube.
* **C84** Every particle inside the mesh is found. Model: `Model/DeviceMapper.lean` (constructors and kernels of the device mappers, from the models of C34, C35, C40) and `Model/MapChain.lean` (order of the calls, C55). Specification: `Spec/Mapping.lean` (elements cover a box, closed sets). Proof: a particle on an upper bound is moved a little into the box; one of finitely many closed elements contains points arbitrarily near on this ray, so it contains the particle and its bounding box has room above it, and C34 lists it as a candidate; invariants over the order of the calls.
* **C85** Distributed mapping. Composition of the models of C57/C60 (programs of the halo exchange under every schedule) and C84 (mapper). Specification: in the property file, `Mesh2Ok`/`Mesh3Ok` (what a distributed mesh is), `InOwnedCell`, and the statement `distributed_2d`/`distributed_3d`. Proof: the domain intersected with the cell is covered, so an element contains the position whose bounding box meets the cell (`cell_element`); C57/C60 give that the rank knows it, C84 that the mapper finds it.
* **C86** Conservation. No new code is modelled: the basis of basis_reference.cpp and the calls of C78/C79. Specification Spec/VertexModes.lean: which mode belongs to which vertex, the weights of the vertices (Spec/LinearElements.lean), fields with given values at the vertices, quadrature. Proof: the sum over the modes reduces to the vertices (`vertex_sum`), an identity for each shape, then the weak form of C78 and the evaluation of C79.
* **C87** Main loops of the electrostatic solvers. Model/PicLoop.lean: configuration, tests of the periods, the body of the loop in order (both solvers), callbacks that may change the state, the HDF5 file through Model/Hdf5Writer.lean; push, field solve and energies are parameters, instantiated with Verlet and Boris. Specification Spec/PicLoop.lean: trajectory and due steps. Proof: invariant over the steps (`Inv`), then selection of each kind of output. Findings: Boris diagnostics combine new positions with the old potential; printed energies may be stale; the Bernstein solver reads the magnetic field as optional and then requires it; `line_field_deriv_evaluations_step` is read uninitialised (without effect).
* **C88** VTK files of meshes. Model/VtkWriter.lean: the maps of vertices and edges, the sections of the file as lists of the printed values (the text format of numbers is not modelled). Specification Spec/VtkWriter.lean: a reader of the legacy format (`readBack`) and consistent collections (`MeshLike`). Proof: the folds into std::map are the sorted distinct entries, the reader inverts the concatenation of the cells. Finding: mixed collections shift the properties.
* **C89** Mass recording. Model/MassRecorder.lean: both recorders as objects of one rank with their file, the calls in v_InitObject, v_PreIntegrate and v_PostIntegrate; what is read at each call is an environment with the values of all ranks. Specification Spec/MassRecorder.lean. Proof: induction over the history. Global sums (GlobalArray, MPI_Allreduce, Integral) are external contracts. Findings: null pointer without particles, uninitialised initial mass.
* **C90** Parallel time steps equal serial time steps. Model/ParallelStep.lean: `transfer_particles` on all ranks (boundary condition, `hybrid_move` of NESO-Particles as a contract: reset ranks, map all cells, send what is not mapped to the owner of its cell of the mesh hierarchy into cell zero, map cell zero, move to the mapped rank; cell id translation; `cell_move`). Specification in C90_ParallelStep: `serialStep` on the multiset of particles, `Settled`. Proof: each stage keeps the multiset (sums over ranks), C85 says that owners can map what they receive, induction over steps.
* **C91** The electrostatic simulation does not depend on the ranks. Model/ParallelPic.lean: the main loop of Model/PicLoop.lean with the particles of all ranks (Model/ParallelStep.lean), the kernels of the integrators, `compute_field` and the energies; basis functions, potential and solve are parameters, the sums over ranks are MPI_Allreduce / assembly of Nektar++. Spec/ParallelPic.lean: `TimeStep` relates multisets of particles, without ranks and cells: any assignment of particles to elements that contain them. Proof: each stage of the parallel step refines a stage of `TimeStep` (C90 for transfers), induction over steps; `ranks_not_observable` by showing that `TimeStep` is deterministic if the functions are single-valued on shared boundaries.
* **C92** A field has one value at each point. Model/HostField.lean: the host functions of utilities.hpp with the Nektar++ operations as parameters. Spec/HostField.lean: their contracts, and `Consistent` (coefficients and quadrature values are those of one function). Proof: every modified basis function is a polynomial in the collapsed coordinates of bounded degree (Lemmas/ModalDegree.lean), so the interpolant of its values at enough nodes is the function, and uniqueness of the interpolant (C15) makes the evaluators of C79 and C80 agree; linear functions by C86. Finding: the third direction of a pyramid needs 2n-3 nodes, so with the usual n+1 nodes and n >= 5 the two evaluators disagree (`pyramid_evaluators_differ`, for every choice of nodes); evaluating on the host outside of the mesh uses the index -1 unchecked.
* **C93** Reflecting walls keep the particles in the domain. Model/Reflection.lean: constructor, pre_advection and execute on all ranks, on top of Model/CompositeIntersection.lean and Model/CompositeCollections.lean; `BoundaryReflection` is a parameter. Spec/Reflection.lean: the contract of `BoundaryReflection`, domains closed by walls. Proof: the hit reported is a nearest one (C32) among the geometries of the cells the step passes, which were collected (C33, C29); a wall met before the new position would be a nearer hit. Induction over calls and exchanges of particles. Finding: the constructor does not pass its configuration to `CompositeIntersection`, so the tolerances of the user are ignored.
* **C94** Every element is given to exactly one mapper, with the user's settings. Model/MapperConstruct.lean: the constructors of the 2D and 3D mappers, the containers of elements they build and the settings they read. Spec/MapperConstruct.lean: which elements each mapper is meant for, values of a configuration. Proof: counting each element in the lists of the mappers (C22 for the container). Findings: `grid_size_max` is read from the key `grid_size_min`; deformed triangles are in no mapper in 2D.
* **C95** Periodic boundaries in floating point arithmetic. Model/FloatKernels.lean `wrapF`: each operation followed by a rounding function `rnd`, multiply-add fused or not. Spec/Rounding.lean: the floating point numbers of precision p and least exponent emin, and what any IEEE rounding mode satisfies (monotone, fixes floating point numbers, values are floating point numbers). Proof: error bounds of Lemmas/Rounding.lean. Overflow and NaN are not modelled. Findings: particles inside the domain can be moved; the upper end can be reached.
* **C96** The sub steps of a particle integration cover the time step in floating point arithmetic. Model/FloatKernels.lean `SubSteps`. Proof: Sterbenz' lemma near the end, induction on the number of steps left. Finding: with a step below the resolution of the time the loop does not end (`loop_stuck`).
* **C97** Candidate elements are found in floating point arithmetic. Model/FloatLookup.lean: the grid, the overlaps, the constructor and the kernels' index with a rounding after each operation. Proof: error bounds of each step (Lemmas/FloatLookup.lean), monotonicity of the index, no underflow of the products; the arrays as in C34. The exponential and logarithm are any approximation with relative error 2^-40. Finding: for coordinates whose resolution is above 1e-8 the constructor can stop.
* **C98** Projecting onto several fields at once. Model/MultiField.lean: the checks of FieldProject's constructor (function_projection.hpp:99-168) and the projection in C37/C40's terms for each field. Specification Spec/MultiField.lean: fields on a mesh, where shapes and numbers of coefficients are functions of the id and the modes. Proof: the checks imply equal lists of expansions by induction; the rest is rewriting. Finding: on surface meshes in three dimensions the loop over the bases reads a third basis.
* **C99** The programs report failed runs. Model/Programs.lean: the mains; phases return or throw. Proof: induction on the list of phases. Finding: Electrostatic2D3V returns zero after a thrown string.
* **C100** Field evaluation in floating point arithmetic. Model/FloatBary.lean: the functions of bary_evaluation.hpp with a rounding after each operation and optional contraction. Specification Spec/FloatBary.lean: Lagrange polynomials as products, Lebesgue function, interpolants, and what is assumed of points and weights. Proof: relative errors as exponents that add up (Lemmas/FloatBary.lean), backward error of the denominator, forward error of the sums; subtraction of doubles has no underflow, so the test for a quadrature point is exact.
* **C101** Initial particles of the electrostatic solver. Model/InitialParticles.lean: `add_particles` branch by branch with the random engines as state machines, `sobol_within_extents`. Spec/InitialParticles.lean: ranges of the random numbers, the species of each key. Proof: every particle is a row of its branch (induction over the loops), identities from C68, the offset of the Sobol sequence makes the concatenation over ranks one sequence. Findings: key 0 scales absolute positions; bands of absolute width; own coins of each rank; erf_inv(-1); thermal velocity applied twice on the ring.
* **C102** Units, weights and sources of the neutral particles. Model/NeutralSetup.lean: `set_up_particles` of both systems as arithmetic over the reals. Proof: algebra; symmetry of the nodes under reflection of the loop. Findings: walls are tested on the first coordinate although the domain may be rotated; lines outside the domain for small offsets; `(extent - origin) / 2` is not the middle.
* **C103** Kernel launches. Model/Launch.lean: an nd_range as the list of its work items, the guard of the kernel, the slices of the local memory, and a group as a state changed by interleaved steps. Proof: arithmetic on quotients, lists of ranges in blocks, induction over the schedule.
* **C104** Coefficients of the Hasegawa-Wakatani systems. Model/HWParams.lean: `load_params` on a partial map of parameters. Proof: case analysis over the defined parameters, algebra with square roots and logarithms. Finding: `rho_s0 = sqrt(mi * T0 / e / Bmag)` divides by the field under the root.
* **C105** Ionisation in floating point arithmetic. Model/FloatIonisation.lean: the kernels with a rounding after each operation and a flag for each contraction; the rate, sine and cosine are any doubles. Proof: monotonicity of rounding for the range of the weight, relative errors with a term for underflow for the balance, induction over the calls.
* **C106** The Boris push in floating point arithmetic. Model/FloatBoris.lean: the kernel with a rounding after each operation except for products fused with a sum. Proof: backward errors for charge and field, a forward error analysis in which the factor 2t/(1+t^2) cancels the growth of the first vector product with t, the exact conservation of C51, induction over the steps.
* **C107** The test of regular 2D elements in floating point arithmetic. Model/FloatRegular.lean: the loop body with a rounding after each operation except for products fused with a sum. Proof: forward error analysis of the dot products relative to the area (the errors scale with side^2/area), of the quotients and of the collapsed coordinate; for the lost particle the value of each operation with rounding to nearest. Finding: particles near a collapsed vertex may be found in no element, which stops the program.
* **C108** Points of a source line on several ranks. Model/LineInit.lean: the constructor on all ranks (created points, transfer, arrays filled in loops over cells) and the particles that add_particles creates from the drawn indices. Proof: the points of all ranks are a permutation of the points of the line (intervals of get_decomp_1d, transfer of C90, invariant of the filling loops), the samples of the ranks partition the draws (C46), offsets of the ranks in the concatenated points; line_2d instantiates the hypotheses with the mappers and cell ids of C90.
* **C109** The potential on a grid of probes. Model/LineField.lean: the constructor on all ranks, write and sequences of calls. Proof: the probes are a grid (nodup indices, midpoints), the transfer of C90 without boundary condition for positions of the domain, invariant over the calls (places of the probes do not change, numbering), C87 and C91 for the runs. Finding: derivative with mean_shift.
* **C110** Neutral particles of SimpleSOL on several ranks. Model/ParallelNeutral.lean: cells of all ranks, source lines with samplers, all kernels, integrate, project_source_terms, v_PreIntegrate. Spec/ParallelNeutral.lean: one multiset of particles, each sub step a relation (the element used for a particle on a common boundary is any that contains it). Proof: C108's core for one call of the sampler, C90's transfer, invariant (settled, samplers at the same draw), induction over sub steps and time steps; refinement to the list model of C62-C64.
* **C111** Neutral particles of DriftReduced on several ranks in 3D. Model/ParallelDriftReduced.lean: creation with the parallel advection, forward Euler, ionisation, integrate, projection, removal. Spec/ParallelDriftReduced.lean: one multiset of particles, each sub step a relation. Proof: C90's transfer; the first components of all particles are invariant in the advection rounds; induction over sub steps and time steps; the multiset of identities only shrinks; the mass telescopes.
* **C112** Intersection with a wall in floating point. Model/FloatWall.lean: normal, average of the vertices and the segment test with a rounding after each operation. Spec: signed distance in exact arithmetic (height), trajectories. Proof: for walls across an axis both scalar products are monotone functions of the coordinate, so monotone rounding preserves 0 <= num <= den; at an angle, an error analysis; the counterexample by computing all roundings in the kernel.
* **C113** The construction of CompositeIntersection on all ranks followed by any number of calls. Model/WallRun.lean composes the models of C26 (claims), C29 (collection) and C32/C33 (find_cells, get_intersections) from the meshes of the ranks. Spec/WallRun.lean: walls of the mesh, reached from inside, what a report must contain. Proof: a wall reached from inside of an element is given for a cell that this element claims, and the step examines this cell; then C29 and C32; induction over the calls.
* **C114** The loops of the six shapes with a rounding after every operation and optional contraction (Model/FloatExpansion.lean). Spec/FloatExpansion.lean: the error sumError. Proof: a simulation between the floating point loops and the exact loops of C13/C14 (the same reads, products within the error, one accumulation per degree of freedom); the atomic additions are lifted along the permutation to additions with their exact values; C13/C14 give the exact values.
* **C115** Model/FloatBasis.lean: the constructor of the tables, host_evaluate and mod_A with a rounding after every operation and all contractions. Spec/FloatBasis.lean: accuracy after k roundings of values of magnitude m. Proof: the integers of the constructor are exact below 2^53, so an entry is one reciprocal and one product; sizes of the exact coefficients; induction over the recursion with a calculus that counts roundings; C114 for the loops.
* **C116** Model/FloatShapes.lean: the maps to collapsed coordinates with their guards and mod_B, mod_C, mod_PyrC with a rounding after every operation and all contractions, prepare_per_dim_basis for all shapes. Proof: the guarded differences of doubles keep their sign and have one relative rounding; a simulation between the loops in doubles and the loops in exact arithmetic (Model/BasisEvaluation.lean), in which entry by entry the roundings are counted; the start value 1/b0 * b0 is one up to two roundings because doubles are 2^-53 away from one; C114 for the loops over the modes. **Finding:** for tetrahedra `d = 2(1+xi1)/(1-xi2) - 1` is rounded to exactly 1 for positions inside the element next to (not on) the collapsed edge; `mod_B` then computes `1.0 / b0` with `b0 = 0` and writes values that are not finite (`tet_not_finite`, all numbers of modes, rounding to nearest).
* **C117** No new model. Proof: the vertex modes sum to one in exact arithmetic (C86), so the pairing of the computed degrees of freedom differs from the sum of the values by the pairing of the errors of C116.projection_error, whose weights are nonnegative.
* **C118** Model/FloatExpr.lean: expressions and the relation of all values a program may compute with contractions. Model/FloatLinear.lean: the generated residuals, one let for each statement (tools/gen_float_linear.py). Model/FloatNewton.lean: what the residual and the maps from collapsed coordinates return, doubles with one value for infinities and NaN, comparisons. Proof: a certificate calculus counts roundings; for pyramids the quotients are bounded because the stored coordinates were computed from collapsed coordinates and 1 - z is at least 2^-53; then C36.accepted_sound and C38. An implementation without contractions satisfies the hypotheses for all shapes.
* **C119** Model/NanNewton.lean: the generated residuals (Model/FloatLinear.lean) with arguments that may be NaN, written as the expression 0/0 which has no value; sycl::fmax; the measures; the test for the apex. Proof: an expression with a NaN argument has no value; case distinctions on fmax. Model/NanRegular.lean: the tests of regular elements with numbers that may be NaN; NaN propagates to the local coordinates, all comparisons are false, the distance is zero; for numbers it is the test of C40.
* **C120** Model/FloatRegular3.lean: the local coordinates and collapsed coordinates as expressions with all the values a compiled program may compute (Model/FloatExpr.lean). Proof: error bounds of triple products by counting roundings; a relative error for the inverse volume; the bounds of C40 for collapsed coordinates with computed divisors; for the finding, exact evaluation of every rounding at one position.
* **C121** Model/FloatNormal.lean (lines) and Model/FloatWall.lean (faces): each operation, division and square root followed by a rounding. Proof: error of the computed sum of squares, root, inverse and products; perturbation of the direction of a vector; Cauchy-Schwarz for the reflection, induction over the reflections.
* **C122** Model/Potential.lean: the factors, the right hand sides and the solve with HelmSolve as an argument; the second derivatives are arbitrary operators. Proof: substitution in the contract; linear algebra for a wave.
* **C123** Model/FloatDiagnostics.lean: the terms of the particles in floating point arithmetic and the additions as an arbitrary tree. Proof: one relation (error after k roundings relative to a magnitude, plus underflow) which is kept by sums, products and roundings; induction over the tree.
* **C124** Model/FloatPoints.lean: the positions with a rounding after each operation. Proof: the added term is the exact one up to a relative error of 2^-49, which is less than the distance of the last point from the end; monotonicity of the rounding does the rest. For the probes a chain of absolute errors.
* **C125** Model/FloatVerlet.lean: both kernels with a rounding after each operation, and the main loop. Specification: the recursion of velocity Verlet, shown to be the model of the kernels in exact arithmetic. Proof: the relation Near of Lemmas/FloatDiagnostics.lean (number of roundings, magnitude, underflow), by induction over the steps.
* **C126** The model of the main loop in Model/Electrostatic.lean. Specification: frequency, energy, and where a particle gets before the periodic boundary condition. Proof: a quadratic constant of motion below the limit; from the limit on the displacements grow by at least the free path in each step (three term recursion), by induction.
* **C127** Model/Boris.lean. Specification: the textbook drift velocity and radius. Proof: from the implicit equation of C51; the guiding centre is a linear function of position and velocity that moves with the drift in each step; induction over the steps.
* **C128** Model/PicLoop.lean: the time step of the main loop with either integrator. Proof: the relation 'the same positions, velocities half a step earlier' is preserved by a step of each; induction over the steps.
* **C129** Model/Electrostatic.lean. Specification: the formula of the parabola. Proof: induction over the steps with the periods collected.
* **C130** Model/Electrostatic.lean. Specification: Mathlib's volume and MeasurePreserving on phase space, and the flow map. Proof: the program follows the flow (the periodic remainders agree because points of the domain that differ by periods are equal), and the flow is a kick, a drift and a kick, each a shear that preserves the product measure (skew products).
* **C131** Model/Boris.lean, Model/PicLoop.lean. Specification: Mathlib's volume and MeasurePreserving on phase space, and the flow map. Proof: for given positions the push is a translation, a matrix of determinant one and a translation for each particle (a skew product), and the drift is a shear.
