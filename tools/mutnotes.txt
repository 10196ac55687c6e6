# defn | old | new | tightened theorems (space separated) or equivalent | note
Elem.fromFirst | * | * | C54.read_particles_accepted | the reader must now accept every well formed document and return its contents
funDef | * | * | C54.read_particles_accepted | acceptance direction added
readReaction | * | * | C54.read_particles_accepted | acceptance direction added
pAttrsOk | * | * | C54.read_particles_accepted | acceptance direction added
cAttrsOk | * | * | C54.read_particles_accepted | acceptance direction added
posInt | * | * | C54.read_particles_accepted | acceptance direction added
wrap | 64 | 65 | equivalent | sums never wrap on accepted inputs; a negative difference is rejected by b < e anyway
hasDiverged | * | * | C36.newton_inverse_sound | a result is returned only if no local coordinate left the divergence bound
quadImpl | * | * | C59.accepted_inside C59.quad_point_accepted | new property on the acceptance of points inside the element
hexScaling | * | * | C59.accepted_inside | new property
pyrXt | * | * | C59.accepted_inside | new property
collapse | * | * | C13.evaluate_at_reference_position_partial C14.projection_at_reference_position_partial | the collapsed coordinates are now pinned by an independent specification
mhCellBox | * | * | C02.cell_box_exact | the box of a hierarchy cell is now stated coordinate by coordinate
getInt | * | * | C05.default_zero | default values now stated
minimumAbsrelError | * | * | C10.minimum_error_iff | the minimum is now characterised by an iff
inverseGoldenRatios | * | * | C47.golden_digits C47.golden_unique | each constant is now proved to be the rounding of the root it stands for
shapeOk | * | * | C29.composites_wrong_shape | error case now stated
mask | * | * | C29.composites_wrong_shape | literal value now in the statement
Writer.stepStart | * | * | C48.first_step_kept | the first step of each number is kept
Writer.writeGlobal | * | * | C48.global_first_kept | first global value kept
Writer.new | * | * | C48.first_step_kept | writes are counted from 0
intMax | * | * | C03.cell_id_round_trip | literal INT_MAX in the statement
cellStart | 0 | 1 | equivalent | the comparison c<0 against c<1 differ only at c=0 where both branches give 0
cellStarts | 0 | 1 | equivalent | comparing with 1 instead of 0 differs only at 0, where the alternative value is 0 as well
offsetEnd | * | * | equivalent | value of an unused dimension
faceEta | * | * | equivalent | default of a lookup that is always in range
getSamples | * | * | equivalent | with zero points the loop draws nothing
Writer.writeStep | * | * | equivalent | on this path the call has already failed, the counter is not read again
lamPyrC | max | min | equivalent | lamB already takes the maximum with r-1
INT_MIN | * | * | equivalent | only used as an initial value of a maximum over a non empty set
isSpace | * | * | C54.stoi spec (Spec StartsWithInt) | white space now literal code points in the specification
INT_MAX | * | * | equivalent | only an initial value of a minimum over a non-empty set
integratorCheck | * | * | equivalent | the assertion of the program holds for every number, before and after the edit (finding integrator_check_vacuous)
integratorType | * | * | C66.integrator_choice | any component of the magnetic field must now select type 1
position0 | * | * | C67.square_onto | the positions must now fill the whole square
position1 | * | * | C67.streams_band | the positions are now exactly the two bands
resize | - | + | equivalent | a longer buffer: the additional bytes are never read
recvInts | 0 | 1 | equivalent | value of the unused tail of the receive buffer
maxRecvSize | 0 | 1 | equivalent | size of a buffer which is not used without receives
solNames | * | * | C69.sol_session | accepted sessions and integrated variables of SimpleSOL are now given by name
solInit | * | * | C69.sol_session | accepted dimensions are now part of the theorem
defaults | * | * | C72.default_tensor C73.default_parameters C102.default_sources | results for a session without parameters
Coeffs.varSize | 0 | 1 | equivalent | an incomplete map of coefficients still has fewer than three entries, the access is out of bounds as before
eField | * | * | C70.exb_potential | drift in terms of the gradient of the potential
lapdRhs | * | * | C71.lapd_forces | both momentum equations are now given term by term
substepSOL | * | * | C64.sol_moves | positions and the counter of sub steps after a sub step
euler | * | * | C64.sol_moves C64.dr_moves | positions after a sub step
newParticle | 0 | 1 | equivalent | the sources of a new particle are overwritten by the ionisation before they are read
srcDefaults | * | * | C74.default_sources | values of the defaults
srcPrefac | * | * | C74.total_values C74.momentum_ratio | totals of the sources and ratio of momentum and density source
srcMu | * | * | C74.sources_symm C74.momentum_ratio | the middle of the line is now written out
removeKey | * | * | C62.removed_id | the value of the key
gammaEM | * | * | C62.expint_formula | the formula with its constants
barryQ | * | * | C62.expint_formula | the formula with its constants
regions | * | * | C78.regions_disjoint | the regions are consecutive and share no entry
State.addCell | .1 | .2 | C80.constructor_lengths | the assertion on the lengths
State.addCell | .2 | .1 | C80.constructor_lengths | the assertion on the lengths
State.addCell | 0 | 1 | equivalent | default of a lookup that succeeds for all cells of the mesh
State.init | * | * | equivalent | lower bound of a maximum over numbers of points that are at least one
code2 | * | * | equivalent | only the distinctness of the codes matters
localMemory | * | * | equivalent | bound of the environment, larger memory only
fin9 | * | * | equivalent | default that is not used after the test
dblOps | * | * | equivalent | ties, values that are not finite and the divergence cut change which candidates are tried, not the acceptance that is claimed (C36.newton_inverse_sound states the cut for all operations)
getElement2d | * | * | equivalent | head? of the empty list is none
faceEta | * | * | equivalent | default of a table lookup within range
offsetEnd | * | * | equivalent | dimensions that do not exist
getSamples | * | * | equivalent | the loop draws nothing without local points
INT_MAX | * | * | equivalent | sentinel of an empty range
INT_MIN | * | * | equivalent | sentinel of an empty range
integratorCheck | * | * | equivalent | the condition is always true (finding)
recvInts | * | * | equivalent | padding that is not read
resize | * | * | equivalent | padding that is not read
maxRecvSize | * | * | equivalent | value without receiving ranks, not used
lamPyrC | * | * | equivalent | the table already has r - 1 rows from the triangle part
cellStart | * | * | equivalent | a start of zero is zero in both
cellStarts | * | * | equivalent | start of an empty range
Writer.writeStep | 1 | 2 | equivalent | position of a fault after a failed write, any fault pattern is covered
Coeffs.varSize | * | * | equivalent | the array is too short in both cases
newParticle | 0 | 1 | equivalent | overwritten by the ionisation before any projection
readFunctions | * | * | C54.read_particles_accepted | acceptance direction added
mapFaceToVertices | 7 | 6 | equivalent | third vertex of a face, which the points of the face do not use
Config.hdf5 | * | * | C87.energy_file_opened | when the file is opened
vertex | 0 | 1 | equivalent | default of a table lookup within range
intLowest | * | * | equivalent | start of a maximum over values of type int
bernsteinB | 0 | 1 | equivalent | value that is read and not used
sampleElem | 1 | 2 | C45.first_accepted C45.given_up_iff | which candidate, and when the program gives up
entryDomains | * | * | C54.entry_domains | the default of the attribute
shapeToVtk | * | * | C88.cell_types_3d | the types of all shapes
lamA | * | * | C12.max_n_exact C12.max_alpha_exact | the optional outputs in closed form
twoStreamB | 0 | 1 | C87.two_stream_b | components that are not defined
lamC | * | * | C12.max_alpha_exact | the optional outputs in closed form
Elem.first | .head? | .getLast? | C54.first_iff C54.later_sections_ignored | only the first section of a name is read
Writer.stepEnd | 1 | 0 | C48.outside_step | step_end without an open step
edges | .1 | .2 | C83.edge_vertices_shared | ids of the vertices of an edge
leaves | decide (target a.2.pos ≠ r.val) | true | equivalent | a particle that is sent to its own rank is received there
transfer | (l r).reverse | * | equivalent | order of the particles in a cell
hwInit | driftReducedInit fs particles ["ne", "w", "phi"] ["ne", "w"] | driftReducedInit fs particles ["ne", "w"] ["ne", "w"] | equivalent | phi is looked up afterwards in any case, so a missing phi is still rejected
blockSize | vectorLength * 8 | vectorLength * 4 | equivalent | the theorems hold for every block size
mk1 | Store R := addInternal mk0 m | Store R := mk0 | C05.mk1_holds | parameters dropped
loadSizeDef | * | * | C53.load_size_absent | default ignored
readBoundary | if nonempty then some m | if nonempty then none | C54.boundaries_kept | read twice
borisSteps | boris2 prm { q with e0 := (es n).1, e1 := (es n).2 } | boris2 prm { q with e0 := (es n).2, e1 := (es n).1 } | equivalent | every sequence of fields is covered
muSI | * | * | C102.ion_mass | mass of the ion
centreDR | * | * | C102.centreDR_offset | centre of the source
regionVolumeSOL | * | * | C102.region_volume_SOL C102.region_density_partial | volume of a source region
exchangeGeometry2d | exchangePacked2d shape kEdges rank sendRanks rem out k | exchangePacked2d shape kEdges rank sendRanks rem [] k | equivalent | called with empty lists only
Elem.firstText | * | * | C53.first_text | the text is the first text node
entryVars | P.vec ((v.attr "VAR".toList).getD ['*']) | P.vec ['*'] | C54.entry_vars | the attribute VAR decides
driftOf | fun k => velOf fun i => o.deriv i phi k | fun k => velOf fun i => o.deriv 0 phi k | C71.drift_along_contours | the flow is along the contours of the potential
mapAssign | then m.map (fun p => if p.1 = id then (id, g) else p) else | then m else | C22.assigned | the last value counts
ncomp | if derivative then 2 else 1 | if derivative then 1 else 2 | C109.components_fit | a probe has a component for each value
integrate | if timeEnd < s.simulationTime then none | if timeEnd < s.simulationTime then some s | C110.integrate_edges | an earlier time is an error
intersectionSettings | getReal config "CompositeIntersection/contained_tol" newtonTol | getReal config "CompositeIntersection/contained_tol" lineTol | C93.contained_tol_default | the default of the third tolerance
mkF? | decide (extents d > 0) && decide | decide (extents d ≥ 0) && decide | C97.empty_grid_refused | an empty grid is refused
solverPhases | * | * | C99.solver_success_ran | success means that all phases ran
electrostaticPhases | [.session, .mesh, .driver, .system, .run] ++ | [.session, .mesh, .driver, .system] ++ | C99.electrostatic_success_ran | success means that all phases ran
normalF | rnd (nt.z * n_inorm)⟩ | nt.z⟩ | C112.normal_bounded, C112.face_bounded | a normal that is not scaled is not bounded by 2
