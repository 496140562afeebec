{"id": "C01", "title": "Survival probability stays in [0,1] and never increases", "statement": "Start from any photon table whose 'probability' values are in [0,1] and pass it through any list of optical elements. Either the run stops with a ValueError, or every photon ends with a probability that lies in [0,1] (or is NaN, if an element handed back NaN) and is not larger than the probability it had before. An element that proposes a factor outside [0,1] is rejected with ValueError, never silently applied.", "quantifier": "every photon table, every list of elements with arbitrary (adversarial) returned factors, every intersection mask", "why_tests_cant": "A test runs a few instruments; the claim is about every element anybody plugs in and every sequence of them.", "anchors": ["marxs/optics/base.py:_assign_col_value", "marxs/optics/base.py:OpticalElement.process_photons", "marxs/simulator/simulator.py:BaseContainer.__call__"]}
{"id": "C02", "title": "Photons that miss an element are left alone", "statement": "Calling an optical element never changes any already existing column of a photon that does not intersect the element; new columns of such photons hold their default. Photons that do intersect get pos set to the intersection point, the local coordinates set, and the id column set to the element's id_num; all columns not named in the element's output stay unchanged for them as well. If nothing intersects, the table comes back completely unchanged.", "quantifier": "every photon table, every element output dictionary, every mask", "why_tests_cant": "Masks and output dictionaries form an unbounded space; a test checks a handful.", "anchors": ["marxs/optics/base.py:OpticalElement.process_photons", "marxs/base/base.py:SimulationSequenceElement.add_output_cols"]}
{"id": "C03", "title": "A Sequence is the composition of its elements, with hooks called around every element", "statement": "Calling a Sequence passes the photons through its elements in the listed order. Nesting Sequences (without hooks) in any way gives the same result as the flattened list, and with hooks each pre-/postprocess step is called exactly once before/after every element of that container, in order, seeing the photons at that point; a hook's return value is ignored. A KeepCol used as a postprocess step holds one snapshot per element after a call.", "quantifier": "every nesting of sequences, every list of elements, hooks and photons", "why_tests_cant": "Nesting depth and lists are unbounded.", "anchors": ["marxs/simulator/simulator.py:BaseContainer.__call__", "marxs/simulator/simulator.py:Sequence", "marxs/simulator/simulator.py:KeepCol"]}
{"id": "C04", "title": "elements_of_class finds the elements of a class", "statement": "container.elements_of_class(cls, stop_at_first=True) returns, in order of traversal, every element of the tree that matches and has no matching ancestor; with stop_at_first=False it should return every matching element at every depth.", "quantifier": "every container tree, every class predicate", "why_tests_cant": "Trees are unbounded; the failing shape (match nested in a match) is easy to miss.", "anchors": ["marxs/simulator/simulator.py:BaseContainer.elements_of_class"]}
{"id": "C05", "title": "first_of_class_top_level points at the first top-level element that is or contains the class", "statement": "container.first_of_class_top_level(cls) returns index i exactly if the i-th top-level element matches or contains a match and no earlier top-level element does; it returns None exactly if no element in the whole tree matches. Hence elements[:i] is free of the class.", "quantifier": "every container tree, every class predicate", "why_tests_cant": "Trees are unbounded.", "anchors": ["marxs/simulator/simulator.py:BaseContainer.first_of_class_top_level"]}
{"id": "C06", "title": "Parallel places one element per elem_pos with the documented transformation and consecutive ids", "statement": "Parallel generates exactly len(elem_pos) elements. Element i has id id_num_offset+i; a local point p of element i is mapped to global coordinates by first applying all zooms, then all rotations, then all translations of elem_args, elem_pos and the element's uncertainty (elem_args innermost in each group), then the global uncertainty, then the container's pos4d. An elem_args entry that is a list with one entry per element is handed out item by item, everything else is shared by all elements.", "quantifier": "every list of positions, uncertainties, argument dictionaries", "why_tests_cant": "Sizes and matrices are unbounded.", "anchors": ["marxs/simulator/simulator.py:Parallel.generate_elements", "marxs/simulator/simulator.py:Parallel.__init__"]}
{"id": "C07", "title": "move_center moves the reference point but not the elements", "statement": "After container.move_center(M) with an invertible M, every element of the container sits at the same global position as before, for any container orientation.", "quantifier": "every invertible matrix M, every container pos4d, every list of element positions", "why_tests_cant": "Matrices are unbounded; tests use pure translations.", "anchors": ["marxs/simulator/simulator.py:Parallel.move_center"]}
{"id": "C08", "title": "KeepCol.format_positions drops only repeated positions", "statement": "For a list of stored snapshots, the indices kept start with 0, increase, every kept snapshot differs from the previously kept one, and every dropped snapshot is close to the last kept one before it.", "quantifier": "every history of snapshots", "why_tests_cant": "Histories are unbounded.", "anchors": ["marxs/simulator/simulator.py:KeepCol.format_positions"]}
{"id": "C09", "title": "Propagator moves photons along their direction and can be undone", "statement": "propagate(photons, d) moves every photon by d along its direction of flight and changes nothing else: propagating by d1 and then d2 equals propagating by d1+d2, propagating by d and then -d restores the photons, the moved distance equals |d| for unit directions, and the point stays on the original ray.", "quantifier": "every photon list and every real distance", "why_tests_cant": "Continuum of inputs.", "anchors": ["marxs/simulator/simulator.py:propagate", "marxs/simulator/simulator.py:Propagator"]}
{"id": "C10", "title": "FinitePlane.intersect reports exactly the rays that hit the rectangle going forward", "statement": "For an orthogonal pos4d and any ray, FinitePlane.intersect reports a hit iff the ray (travelling forward, parameter >= 0) meets the rectangle spanned by the plane's v_y and v_z, and the ray is not parallel to the plane; the reported position is that meeting point (on the ray and on the plane), and the reported local coordinates locate it: center + y e_y + z e_z. Misses are reported as NaN.", "quantifier": "every plane placement, size, ray origin and direction", "why_tests_cant": "Continuum of inputs; boundaries matter.", "anchors": ["marxs/math/geometry.py:FinitePlane.intersect"]}
{"id": "C11", "title": "Cylinder.intersect reports the first valid hit of the ray on the mantle", "statement": "For every ray not parallel to the axis, Cylinder.intersect reports a hit iff the ray travelling forward meets the cylinder mantle |z|<=1 within the phi limits (in the cylinder's own coordinates), and the reported point is the one of the (up to two) valid meeting points with the smallest path length; the returned phi and z locate that point.", "quantifier": "every ray, every phi range", "why_tests_cant": "Continuum of inputs with many branch combinations.", "anchors": ["marxs/math/geometry.py:Cylinder.intersect"]}
{"id": "C12", "title": "angle_between decides membership in an arc modulo 2 pi", "statement": "angle_between(a, b1, b2) is True iff some angle equal to a modulo 2 pi lies in the arc that starts at b1 and runs counter-clockwise to b2 (borders included). The answer does not change when multiples of 2 pi are added to any argument, and for b1 and b2 equal modulo 2 pi the arc is the full circle.", "quantifier": "all real angles", "why_tests_cant": "Continuum of inputs, wrap-around.", "anchors": ["marxs/math/utils.py:angle_between"]}
{"id": "C13", "title": "anglediff is the arc length from the first to the second angle", "statement": "anglediff([p0, p1]) lies in [0, 2 pi] and is congruent to p1 - p0 modulo 2 pi; it equals p1 - p0 whenever that is already in [0, 2 pi].", "quantifier": "all pairs of real angles", "why_tests_cant": "Continuum of inputs.", "anchors": ["marxs/math/utils.py:anglediff"]}
{"id": "C14", "title": "Euclidean and homogeneous coordinates convert back and forth", "statement": "h2e(e2h(v, w)) = v for every array of vectors and w in {0,1}; e2h rejects every other w; h2e raises ValueError exactly for arrays mixing points (w != 0, not all close to 1) and directions (w = 0), and otherwise is invariant under rescaling a homogeneous point (for w not within rounding of 1).", "quantifier": "every array of vectors and weights", "why_tests_cant": "Unbounded arrays, continuum of weights.", "anchors": ["marxs/math/utils.py:e2h", "marxs/math/utils.py:h2e"]}
{"id": "C15", "title": "Pluecker line/plane intersection returns the common point", "statement": "For every line through a point with a non-zero direction and every plane given by a point and normal that is not parallel to the line, intersect_line_plane returns homogeneous coordinates of the unique point that lies on both; for a parallel line the returned w is 0; a line built from two points equals (up to scale) the line built from a point and the direction between them.", "quantifier": "every point, direction, plane", "why_tests_cant": "Continuum of inputs.", "anchors": ["marxs/math/pluecker.py:dir_point2line", "marxs/math/pluecker.py:e_pointpoint2line", "marxs/math/pluecker.py:point_dir2plane", "marxs/math/pluecker.py:intersect_line_plane"]}
{"id": "C16", "title": "ex2vec_fix and axangle2mat produce rotation matrices", "statement": "axangle2mat(axis, angle) is a proper rotation (orthogonal, determinant one) that fixes the axis and composes additively in the angle for every unit axis and angle. ex2vec_fix(e, fix) is a proper rotation whose first column is the direction of e and whose third column is perpendicular to e and in the plane of e and fix, for every non-parallel pair, and it raises ValueError for parallel input.", "quantifier": "every axis and angle, every pair of vectors", "why_tests_cant": "Continuum of inputs.", "anchors": ["marxs/math/rotations.py:axangle2mat", "marxs/math/rotations.py:ex2vec_fix"]}
{"id": "C17", "title": "Parallel transport keeps polarization transverse and normalised", "statement": "For every pair of unit directions that are not (anti)parallel, the parallel transport matrix is orthogonal and carries direction 1 to direction 2 and keeps the normal of the plane of incidence. Hence a polarization vector perpendicular to the old direction becomes one of the same length perpendicular to the new direction. For identical directions the polarization is unchanged.", "quantifier": "every pair of unit directions, every polarization vector", "why_tests_cant": "Continuum of inputs.", "anchors": ["marxs/math/polarization.py:paralleltransport_matrix", "marxs/math/polarization.py:parallel_transport"]}
{"id": "C18", "title": "polarization_vectors are unit vectors perpendicular to the photon direction", "statement": "For every direction and every angle polarization_vectors returns a unit vector perpendicular to the direction of flight, on both branches (direction along the y axis or not), and the angle is measured from the projected y axis.", "quantifier": "every direction and angle", "why_tests_cant": "Continuum of inputs, degenerate directions.", "anchors": ["marxs/math/polarization.py:polarization_vectors"]}
{"id": "C19", "title": "Diffraction obeys the grating equation", "statement": "For every photon hitting a FlatGrating and every non-evanescent order the outgoing direction is a unit vector, its component along the grooves is unchanged, its component along the dispersion direction changes by m*wavelength/d (with the grating's sign convention), and it leaves on the transmission side for transmission gratings and on the incoming side for reflection gratings. Order 0 in transmission leaves the direction unchanged and order 0 in reflection is a mirror reflection.", "quantifier": "every incoming direction, order, energy, groove spacing and grating orientation", "why_tests_cant": "Continuum of inputs.", "anchors": ["marxs/optics/grating.py:FlatGrating.diffract_photons", "marxs/optics/grating.py:FlatGrating.e_groove_coos"]}
{"id": "C20", "title": "CAT gratings diffract positive orders towards the blazed side", "statement": "For CATGrating the sign convention is chosen photon by photon such that blazing is symmetric: reflecting the incoming direction at the plane spanned by groove direction and normal reflects the diffracted direction, for all orders (when the incoming direction is not itself in that plane).", "quantifier": "every incoming direction and order", "why_tests_cant": "Continuum of inputs.", "anchors": ["marxs/optics/grating.py:CATGrating.diffract_photons", "marxs/optics/grating.py:FlatGrating.diffract_photons"]}
{"id": "C21", "title": "PerfectLens sends all photons of one direction through one focal point", "statement": "All photons that arrive at a PerfectLens from the same direction, wherever they hit it, afterwards fly through one common point, at the distance of the focal length from the center of the lens measured along the incoming direction (for a lens centered on the optical axis); outgoing directions are unit vectors, and the mirror efficiency factor is in [0,1] provided the reflectivity is.", "quantifier": "every direction and every pair of intersection points", "why_tests_cant": "Continuum of inputs.", "anchors": ["marxs/optics/mirror.py:PerfectLens", "marxs/optics/mirror.py:ThinLens"]}
{"id": "C22", "title": "Scattering and jitter keep directions normalised and polarization transverse", "statement": "RadialMirrorScatter, RandomGaussianScatter and JitterPointing change each photon direction by a rotation: length is preserved for every drawn angle, and polarization stays perpendicular and of the same length. RandomGaussianScatter turns the direction by exactly the drawn angle.", "quantifier": "every direction, polarization and random draw", "why_tests_cant": "Continuum of inputs and draws.", "anchors": ["marxs/optics/scatter.py:RadialMirrorScatter", "marxs/optics/scatter.py:RandomGaussianScatter", "marxs/source/pointing.py:JitterPointing"]}
{"id": "C23", "title": "A Brewster mirror reflects specularly", "statement": "FlatBrewsterMirror reflects the photon direction at its surface: the tangential component is kept, the normal component is reversed, applying it twice restores the direction, and the returned survival probability is in [0,1].", "quantifier": "every direction, polarization and mirror orientation", "why_tests_cant": "Continuum of inputs.", "anchors": ["marxs/optics/multiLayerMirror.py:FlatBrewsterMirror"]}
{"id": "C24", "title": "RandomArbitraryPdf draws bin i for a set of random numbers of length proportional to its weight", "statement": "RandomArbitraryPdf with non-negative weights maps a uniform number u to bin i for u in an interval whose length is the weight of bin i divided by the total; the intervals of all bins tile (0,1], so no draw is lost and zero-weight bins are never drawn (for u>0).", "quantifier": "every table of weights, every draw", "why_tests_cant": "Distributional claims quantify over all draws.", "anchors": ["marxs/math/random.py:RandomArbitraryPdf"]}
{"id": "C25", "title": "Order selectors always return a listed order and the tabulated total efficiency", "statement": "EfficiencyFile and InterpolateEfficiencyTable return for every photon and every random draw in [0,1) an order from their list; order k is selected for draws in an interval of length p_k/sum(p), so orders with zero probability are never selected, and the returned survival probability is the sum of the order probabilities. OrderSelector with weights returns listed orders only.", "quantifier": "every efficiency table with positive total, every energy, every draw", "why_tests_cant": "Tables and draws are unbounded.", "anchors": ["marxs/optics/grating.py:EfficiencyFile", "marxs/optics/grating.py:OrderSelector", "marxs/missions/mitsnl/catgrating.py:InterpolateEfficiencyTable"]}
{"id": "C26", "title": "MultiAperture sends every photon through exactly one sub-aperture, in proportion to area", "statement": "For every list of sub-apertures with positive areas and every draw in [0,1), MultiAperture assigns the photon to exactly one sub-aperture, and sub-aperture k is chosen for draws in an interval of length area_k/total area.", "quantifier": "every list of areas, every draw", "why_tests_cant": "Lists and draws unbounded.", "anchors": ["marxs/optics/aperture.py:MultiAperture"]}
{"id": "C27", "title": "Aperture points lie inside the aperture", "statement": "RectangleAperture places photons inside the rectangle, CircleAperture inside the ring r_inner<=r<=r_outer and the phi range, for every draw in [0,1); the reported area equals the area of that region.", "quantifier": "every aperture size, every draw", "why_tests_cant": "Continuum of draws.", "anchors": ["marxs/optics/aperture.py:RectangleAperture", "marxs/optics/aperture.py:CircleAperture"]}
{"id": "C28", "title": "Detector pixel numbers match the place of the hit", "statement": "For a photon that hits a FlatDetector whose size is a multiple of the pixel size, the pixel coordinates lie in [-0.5, npix-0.5], the center of the detector has pixel coordinate (npix-1)/2, pixels are equally spaced: moving by pixsize changes the coordinate by one, and the local coordinate can be recovered from the pixel coordinate.", "quantifier": "every detector size, pixel size and hit position", "why_tests_cant": "Continuum of inputs.", "anchors": ["marxs/optics/detector.py:FlatDetector"]}
{"id": "C29", "title": "FlatStack intersects once and applies its elements one after the other", "statement": "FlatStack computes the intersection once and gives all its elements the same mask, position and local coordinates; a photon missing the stack is unchanged and a photon hitting it sees the elements' effects in order with probability factors multiplied.", "quantifier": "every list of elements, every mask", "why_tests_cant": "Lists unbounded.", "anchors": ["marxs/optics/base.py:FlatStack.process_photons"]}
{"id": "C30", "title": "Sources emit photons at equally spaced times inside the exposure", "statement": "For a number-valued flux rate and exposure time T a source emits photons at times 0, 1/rate, 2/rate, ... all in [0, T), exactly ceil(T*rate) of them.", "quantifier": "every rate and exposure time", "why_tests_cant": "Continuum of inputs.", "anchors": ["marxs/source/basesources.py:Source.generate_times"]}
{"id": "C31", "title": "poisson_process returns increasing times inside the exposure", "statement": "The times returned by poisson_process are non-decreasing and lie in (0, T) for every stream of positive waiting times, the result is exactly the maximal prefix of arrival times smaller than T (no arrival in the window is lost or invented), however many batches were drawn.", "quantifier": "every rate, exposure time and stream of random waiting times", "why_tests_cant": "Unbounded loop over random batches.", "anchors": ["marxs/source/basesources.py:poisson_process"]}
{"id": "C32", "title": "Extended sources stay inside their disk", "statement": "DiskSource and SphericalDiskSource emit photons from radii between a_inner and a_outer for every draw in [0,1), monotone in the draw, with the number of draws up to radius r proportional to the area (flat or spherical cap) enclosed.", "quantifier": "every radius pair and draw", "why_tests_cant": "Continuum of draws.", "anchors": ["marxs/source/basesources.py:DiskSource", "marxs/source/basesources.py:SphericalDiskSource"]}
{"id": "C33", "title": "Effective area and detected fraction are consistent sums", "statement": "effectivearea_from_photonlist returns for each requested order A_geom/n_photons times the summed probability of the photons with this order; orders are independent, adding photons of other orders or photons with probability 0 changes nothing, and the sum over distinct orders covering all photons is A_geom/n_photons times the total probability; detected_fraction behaves the same way and lies in [0,1] for probabilities in [0,1] and at most n photons.", "quantifier": "every photon list, list of orders", "why_tests_cant": "Lists unbounded.", "anchors": ["marxs/analysis/gratings.py:effectivearea_from_photonlist", "marxs/analysis/analysis.py:detected_fraction"]}
{"id": "C34", "title": "CaptureResAeff splits effective area into zero order and dispersed orders without loss", "statement": "For every list of distinct orders, the reported zero-order effective area plus the dispersed effective area equals the sum of the per-order effective areas, and the zero-order area is the entry of order 0 (0 if order 0 is not listed).", "quantifier": "every list of orders and photons", "why_tests_cant": "Lists unbounded.", "anchors": ["marxs/analysis/gratings.py:CaptureResAeff"]}
{"id": "C35", "title": "Weighted averages of resolving power stay within the range of the input", "statement": "weighted_per_order and average_R_Aeff return weighted means: each result lies between the smallest and largest input value with positive weight, is unchanged when all weights are scaled by a common positive factor, and the returned total area is the sum of the inputs.", "quantifier": "every table of values and non-negative weights", "why_tests_cant": "Arrays unbounded.", "anchors": ["marxs/analysis/gratings.py:weighted_per_order", "marxs/analysis/gratings.py:average_R_Aeff"]}
{"id": "C36", "title": "RMF rows decode to what was encoded, above the threshold", "statement": "arr_to_rmf_matrix_row encodes any response row as groups; decoding by the OGIP rules gives back the row with every entry not above the threshold replaced by zero and all others exact; groups are non-empty, ordered and separated by at least one channel, and N_CHAN sums to the number of stored matrix elements.", "quantifier": "every row of any length, every threshold and first channel number", "why_tests_cant": "Rows unbounded.", "anchors": ["marxs/reduction/ogip.py:RMF.arr_to_rmf_matrix_row", "marxs/reduction/ogip.py:RMF.full_rmf", "marxs/reduction/ogip.py:RMF.rmf"]}
{"id": "C37", "title": "RMF.row, RMF.full_rmf and RMF.rmf agree with the stored groups", "statement": "For every RMF written with the library's own encoder, full_rmf and rmf give, for every energy row, the array that was encoded (thresholded), for every TLMIN.", "quantifier": "every RMF, every first-channel convention", "why_tests_cant": "Matrices unbounded; failures only for some TLMIN.", "anchors": ["marxs/reduction/ogip.py:RMF.full_rmf", "marxs/reduction/ogip.py:RMF.rmf", "marxs/reduction/lsfparm.py:make_rmf"]}
{"id": "C38", "title": "EBOUNDS from edges tile the energy range", "statement": "ebounds_from_edges returns len(edges)-1 rows with ascending channels, E_MIN<=E_MAX in each row, the upper edge of each bin equal to the lower edge of the next, for ascending or descending edges in energy or wavelength.", "quantifier": "every list of edges", "why_tests_cant": "Lists unbounded.", "anchors": ["marxs/reduction/ogip.py:RMF.ebounds_from_edges"]}
{"id": "C39", "title": "An OSIP factor is a fraction of the response", "statement": "The factor computed for an order-sorting window is between 0 and 1, increases when the window grows, is additive over adjacent windows, and tends to the full response for windows that cover everything.", "quantifier": "every window, every CCD resolution", "why_tests_cant": "Continuum of inputs.", "anchors": ["marxs/reduction/osip.py:OSIPBase.osip_factor"]}
{"id": "C40", "title": "Applying an OSIP is idempotent", "statement": "apply_osip on an ARF multiplies SPECRESP by the OSIP factor and records it; applying the same or another OSIP to the already corrected ARF gives the same result as applying it to the original ARF.", "quantifier": "every ARF, every pair of OSIPs (with non-zero first factor)", "why_tests_cant": "Histories of re-application.", "anchors": ["marxs/reduction/osip.py:OSIPBase.apply_osip"]}
{"id": "C41", "title": "FractionalDistanceOSIP windows of neighbouring orders never overlap", "statement": "For fraction <= 1 the extraction windows of neighbouring orders around their predicted energies do not overlap, and for fraction = 1 they touch, so every CCD energy between the lowest and highest order is assigned to one order.", "quantifier": "every energy, every pair of neighbouring orders, every fraction", "why_tests_cant": "Continuum of inputs.", "anchors": ["marxs/reduction/osip.py:FractionalDistanceOSIP"]}
{"id": "C42", "title": "ColOrKeyTable returns what was last written", "statement": "For any history of writes, reading a name from a ColOrKeyTable returns the value most recently assigned to it, broadcast to the table length, regardless of whether it is stored as column or header keyword.", "quantifier": "every history of assignments", "why_tests_cant": "Histories unbounded; the stale keyword shows only for some write orders.", "anchors": ["marxs/reduction/ogip.py:ColOrKeyTable", "marxs/reduction/ogip.py:ColOrKeyColumn"]}
{"id": "C43", "title": "check_meta_consistent accepts exactly headers with the same configuration", "statement": "check_meta_consistent accepts a pair of headers iff all keywords that matter agree; it is reflexive and symmetric, and differences in ignored keywords never matter.", "quantifier": "every pair of headers", "why_tests_cant": "Dictionaries unbounded.", "anchors": ["marxs/base/base.py:check_meta_consistent", "marxs/base/base.py:check_energy_consistent"]}
{"id": "C44", "title": "TagVersion writes every configured keyword", "statement": "Calling a TagVersion object on a photon list sets every configured and every call-time keyword in the header and keeps all unrelated keywords.", "quantifier": "every keyword dictionary and header", "why_tests_cant": "Dictionaries unbounded.", "anchors": ["marxs/base/base.py:TagVersion"]}
{"id": "C45", "title": "Points from RowlandTorus.parametric lie on the torus", "statement": "Every point returned by RowlandTorus.parametric(theta, phi) satisfies quartic = 0, also after any affine placement (pos4d) of the torus, and every point with quartic = 0 is parametric(theta, phi) for some angles.", "quantifier": "every torus radius pair, every angle, every placement", "why_tests_cant": "Continuum of inputs.", "anchors": ["marxs/design/rowland.py:RowlandTorus.parametric", "marxs/design/rowland.py:RowlandTorus.quartic"]}
{"id": "C46", "title": "xyzw2parametric inverts parametric", "statement": "For every torus and every pair of angles, parametric(xyzw2parametric(p)) = p for the points p on the torus.", "quantifier": "every torus, every point on it", "why_tests_cant": "Continuum of inputs; degenerate circles.", "anchors": ["marxs/design/rowland.py:RowlandTorus.xyzw2parametric"]}
{"id": "C47", "title": "RowlandTorus.normal is perpendicular to the surface", "statement": "The normal returned for a point on the torus is perpendicular to both surface tangent directions at that point and has the length documented.", "quantifier": "every torus, every point", "why_tests_cant": "Continuum of inputs.", "anchors": ["marxs/design/rowland.py:RowlandTorus.normal_parametric", "marxs/design/rowland.py:RowlandTorus.normal"]}
{"id": "C48", "title": "design_tilted_torus puts focal point and gratings on the torus", "statement": "The torus returned by design_tilted_torus(f, alpha, beta) contains the focal point (origin) and the on-axis grating position at distance f, for every admissible tilt.", "quantifier": "every f, alpha, beta in the documented domain", "why_tests_cant": "Continuum of inputs.", "anchors": ["marxs/design/rowland.py:design_tilted_torus"]}
{"id": "C49", "title": "Double tilted Rowland channels share the detector circle", "statement": "For every channel distance, radius and focal length in the admissible domain, the tori of all channels built by double_rowland_from_channel_distance contain the common focal points and the mirrored and shifted detector circles coincide.", "quantifier": "every admissible set of design parameters", "why_tests_cant": "Continuum of inputs.", "anchors": ["marxs/design/rowland.py:double_rowland_from_channel_distance", "marxs/design/rowland.py:add_offset_double_rowland_channels"]}
{"id": "C50", "title": "RectangularGrid covers the requested range with equally spaced elements", "statement": "The y (and z) coordinates of elements in RectangularGrid are equally spaced by d_element, symmetric about the center of the requested range, contained in the range extended by at most half an element spacing, and there is always at least one element.", "quantifier": "every range and element size", "why_tests_cant": "Continuum of inputs, rounding boundaries.", "anchors": ["marxs/design/rowland.py:RectangularGrid.elemposyz"]}
{"id": "C51", "title": "GratingArrayStructure does not let elements on an arc overlap", "statement": "Elements placed by GratingArrayStructure on an arc of radius r are equally spaced, lie within the arc and are at least d_element apart.", "quantifier": "every radius, arc and element size", "why_tests_cant": "Continuum of inputs.", "anchors": ["marxs/design/rowland.py:GratingArrayStructure.distribute_elements_on_arc", "marxs/design/rowland.py:GratingArrayStructure.distribute_elements_on_radius", "marxs/design/rowland.py:GratingArrayStructure.max_elements_on_arc", "marxs/design/rowland.py:GratingArrayStructure.max_elements_on_radius"]}
{"id": "C52", "title": "Tolerancing moves do not accumulate", "statement": "After any history of moveglobal, moveindividual or moveelem calls on an element the state depends only on the last call of each kind: the last move wins, and a call with all parameters zero restores the original geometry.", "quantifier": "every history of moves", "why_tests_cant": "Histories unbounded.", "anchors": ["marxs/design/tolerancing.py:moveglobal", "marxs/design/tolerancing.py:moveindividual", "marxs/design/tolerancing.py:moveelem"]}
{"id": "C53", "title": "run_tolerances evaluates every parameter set on the unmodified input photons", "statement": "run_tolerances returns one result per parameter set, in order, each computed with a fresh copy of the input photons and containing the parameter values (except where the analysis reports a value under the same name); the input photon list and the parameter sets are unchanged afterwards and, with a wiggle function whose effect depends only on the last call, results do not depend on the order in which parameter sets are listed.", "quantifier": "every list of parameter sets, every wiggle function and instrument", "why_tests_cant": "Histories unbounded.", "anchors": ["marxs/design/tolerancing.py:run_tolerances"]}
{"id": "C54", "title": "generate_6d_wigglelist varies one degree of freedom at a time", "statement": "Every entry of a generated wiggle list has at most one non-zero degree of freedom, the list contains the requested values with both signs, all keys are present in every entry, and translation and rotation lists are independent.", "quantifier": "every list of translations and rotations", "why_tests_cant": "Lists unbounded.", "anchors": ["marxs/design/tolerancing.py:generate_6d_wigglelist", "marxs/design/tolerancing.py:select_1dof_changed"]}
{"id": "C55", "title": "select_1dof_changed picks exactly the runs where only this parameter changed", "statement": "select_1dof_changed(table, par) returns exactly those rows where all other varied parameters have their reference value, in order, including the reference run.", "quantifier": "every table of runs", "why_tests_cant": "Tables unbounded.", "anchors": ["marxs/design/tolerancing.py:select_1dof_changed"]}
{"id": "C56", "title": "identify_photon_in_subaperture assigns sectors", "statement": "Photons are selected if their position angle is, modulo full turns, within max_ang of ang_0 or of its mirror image -ang_0 (including sectors that contain angle 0), and no photon further away than max_ang plus the floating point tolerance of np.isclose is selected.", "quantifier": "every photon position and angle", "why_tests_cant": "Continuum of inputs.", "anchors": ["marxs/analysis/gratings.py:identify_photon_in_subaperture"]}
{"id": "C57", "title": "tablerows_to_2d puts every table entry at its coordinates", "statement": "tablerows_to_2d turns a table that lists the full Cartesian product of two coordinates (second one running fastest) into coordinate vectors and arrays such that entry (i,j) is the table value listed for coordinates i and j; tables which are not a full grid are rejected.", "quantifier": "every grid size and content", "why_tests_cant": "Tables unbounded.", "anchors": ["marxs/utils.py:tablerows_to_2d"]}
{"id": "C58", "title": "CAT grating support structures only remove photons", "statement": "catsupportbars sets the probability of every photon that missed all facets to zero and leaves all others unchanged; QualityFactor multiplies with a factor in (0,1] that is one for order 0, symmetric in the order and decreasing in |order|; L2Abs uses open fraction minus shadow, which lies in [0,1] whenever the shadow does not exceed the open fraction, and otherwise is rejected.", "quantifier": "every photon list, order and support dimension", "why_tests_cant": "Continuum of inputs, unbounded lists.", "anchors": ["marxs/missions/mitsnl/catgrating.py:catsupportbars", "marxs/missions/mitsnl/catgrating.py:QualityFactor", "marxs/missions/mitsnl/catgrating.py:L2Abs", "marxs/missions/mitsnl/catgrating.py:check_lx_dims"]}
{"id": "C59", "title": "Chandra chip to tiled detector coordinates is a rigid, invertible map", "statement": "chip2tdet preserves distances between chip positions for unit scale, maps different chip positions to different TDET positions, and for the ACIS table of origins and rotations the ten chips occupy pairwise disjoint areas.", "quantifier": "every chip coordinate, every chip", "why_tests_cant": "Continuum of inputs.", "anchors": ["marxs/missions/chandra/data.py:chip2tdet", "marxs/missions/chandra/data.py:TDET"]}
{"id": "C60", "title": "Id ranges identify the Arcus channel of each photon", "statement": "With the id_num_offset table, every SPO id that belongs to a channel (offset plus number below 1000) is assigned by the analysis to that channel's aperture number, the scatter ranges of the channels are disjoint, and ids below 0 (no SPO hit) belong to none.", "quantifier": "every id number", "why_tests_cant": "Unbounded integers.", "anchors": ["marxs/missions/arcus/utils.py:id_num_offset", "marxs/missions/arcus/analyze_grid.py:analyze_sim", "marxs/missions/athena/spo.py:ScatterPerChannel"]}
{"id": "C61", "title": "plane_with_hole triangulates the region between the two boundaries", "statement": "For every number of outer and inner points, plane_with_hole returns n_outer+n_inner triangles with valid indices, every edge of the outer boundary and every edge of the inner boundary belongs to exactly one triangle, and neighbouring triangles share an edge.", "quantifier": "every pair of point counts", "why_tests_cant": "Sizes unbounded.", "anchors": ["marxs/visualization/utils.py:plane_with_hole"]}
{"id": "C62", "title": "Combined triangulations draw the same triangles as the parts", "statement": "combine_disjoint_triangulations returns indices such that every triangle of every part refers to the same points as before.", "quantifier": "every list of triangulations", "why_tests_cant": "Lists and sizes unbounded.", "anchors": ["marxs/visualization/utils.py:combine_disjoint_triangulations"]}
{"id": "C63", "title": "Colors are converted to hex without mixing channels", "statement": "color_tuple_to_hex returns a six digit hex number whose three bytes are the (scaled) red, green and blue components, for every valid int or float tuple, and raises ValueError for all others.", "quantifier": "every color tuple", "why_tests_cant": "Continuum of inputs.", "anchors": ["marxs/visualization/utils.py:color_tuple_to_hex"]}
{"id": "C64", "title": "Source energies and polarization angles follow the given distribution", "statement": "For scalar, callable and table input, Source.generate_energies / generate_polarization give one value per photon; a callable must return one value per photon and anything else is rejected; table input never returns a value outside the tabulated range and follows the tabulated density.", "quantifier": "every specification and number of photons", "why_tests_cant": "Unbounded.", "anchors": ["marxs/source/basesources.py:Source.generate_energies", "marxs/source/basesources.py:Source.generate_polarization"]}
{"id": "C65", "title": "Local coordinates are an exact change of frame", "statement": "photonlocalcoords hands photons to the wrapped method in the local frame of the element and transforms positions and directions back afterwards: a method that changes nothing gives back the original photons, and the wrapped method sees inverse(pos4d) applied to pos and dir.", "quantifier": "every invertible pos4d and photon list", "why_tests_cant": "Continuum of inputs.", "anchors": ["marxs/optics/base.py:photonlocalcoords"]}
{"id": "C66", "title": "Facet uncertainties are rigid motions", "statement": "Every matrix produced by generate_facet_uncertainty is a rigid motion (rotation plus translation): it preserves distances and handedness, for every draw.", "quantifier": "every draw of six numbers", "why_tests_cant": "Continuum of draws.", "anchors": ["marxs/design/uncertainties.py:generate_facet_uncertainty"]}
{"id": "C67", "title": "Geometry placement: exactly one way, always invertible", "statement": "_parse_position_keywords accepts either pos4d or (position, orientation, zoom) but not both, rejects zoom factors that are not positive and singular matrices, and otherwise returns pos4d = translate(position) * orientation * zoom, so every accepted placement is invertible.", "quantifier": "every combination of keywords", "why_tests_cant": "Continuum of inputs.", "anchors": ["marxs/base/base.py:_parse_position_keywords"]}
{"id": "C68", "title": "A point source cone stays inside the cone", "statement": "Every photon of a LabPointSourceCone leaves the source within half_opening of the given direction with unit direction, for every draw, and the solid-angle fraction is uniform.", "quantifier": "every direction, opening angle and draw", "why_tests_cant": "Continuum of draws.", "anchors": ["marxs/source/labSource.py:LabPointSourceCone"]}
{"id": "C69", "title": "A baffle stops exactly the photons that miss its hole", "statement": "Calling a Baffle sets pos of every photon that passes the hole to the place where it passes and changes nothing else for it; every photon that does not pass gets probability 0 and keeps all other values. Functions that stop photons (spomounting, catsupportbars) zero the probability of exactly the selected photons and change nothing else. No column is added and no photon lost.", "quantifier": "every photon table and every intersection result", "why_tests_cant": "Every mix of hits and misses and every table layout.", "anchors": ["marxs/optics/baffles.py:Baffle.process_photons", "marxs/missions/athena/spo.py:spomounting", "marxs/missions/mitsnl/catgrating.py:catsupportbars"]}
{"id": "C70", "title": "Local coordinate bases on surfaces are orthonormal", "statement": "get_local_euklid_bases returns for every point of a FinitePlane (with perpendicular axes) and of a circular Cylinder three unit vectors that are perpendicular to each other, the last one normal to the surface.", "quantifier": "every placement of the surface, every point on it", "why_tests_cant": "Continuum of placements and points.", "anchors": ["marxs/math/geometry.py:FinitePlane.get_local_euklid_bases", "marxs/math/geometry.py:Cylinder.get_local_euklid_bases"]}
{"id": "C71", "title": "Polarization of photons from the sky is transverse and measured from North through East", "statement": "For a photon from a sky source with polarization angle a, the polarization vector in spacecraft coordinates has unit length, is perpendicular to the direction of flight, points north at a=0 and east at a=90 degrees, for every pointing and source position except the celestial poles.", "quantifier": "every north vector, photon direction and polarization angle", "why_tests_cant": "Continuum of inputs.", "anchors": ["marxs/source/pointing.py:FixedPointing.photons_pol"]}
{"id": "C72", "title": "A far lab source illuminates its aperture with rays from the source position", "statement": "Every photon of a FarLabPointSource starts inside the rectangular aperture, uniformly in both directions, and its ray comes from the position of the source.", "quantifier": "every aperture placement, source position and draw", "why_tests_cant": "Continuum of placements and draws.", "anchors": ["marxs/source/labSource.py:FarLabPointSource"]}
{"id": "C73", "title": "Resolving power is computed order by order and the robust version reports the worst case", "statement": "resolvingpower_from_photonlist uses for each order only the photons of that order, gives NaN for orders with too few photons and |mean - zero|/FWHM otherwise; resolvingpower_from_photonlist_robust returns for each order R, mean and standard deviation of one and the same coordinate, the one with the smallest R (NaN if any is NaN).", "quantifier": "every photon list, list of orders and set of coordinates", "why_tests_cant": "Unbounded lists.", "anchors": ["marxs/analysis/gratings.py:resolvingpower_from_photonlist", "marxs/analysis/gratings.py:resolvingpower_from_photonlist_robust"]}
{"id": "C74", "title": "Converting an RMF to fixed length arrays does not change the response", "statement": "RMF.variable_length_to_fixed_length (used for writing FITS files) changes the storage only: the full response matrix computed from the converted table is the same as before.", "quantifier": "every table of groups with any number of groups and channels per row", "why_tests_cant": "Unbounded table sizes and group structures.", "anchors": ["marxs/reduction/ogip.py:RMF.variable_length_to_fixed_length", "marxs/reduction/ogip.py:RMF.write", "marxs/reduction/ogip.py:RMF.full_rmf"]}
{"id": "C75", "title": "osip_tab and osip_range describe the same window", "statement": "For every order-sorting class osip_range(E, m) is [E - osip_tab(E, m)[0], E + osip_tab(E, m)[1]], no matter which of the two methods the class defines.", "quantifier": "every order-sorting class, energy and order", "why_tests_cant": "Continuum of energies.", "anchors": ["marxs/reduction/osip.py:OSIPBase.osip_tab", "marxs/reduction/osip.py:OSIPBase.osip_range"]}
{"id": "C76", "title": "apply_osip_all processes every order and its contaminants, and nothing else", "statement": "apply_osip_all processes exactly the pairs (nominal order, true order) where the nominal order was requested, the difference is one of the offset orders, and both orders are on the same side of the zeroth order, each pair once.", "quantifier": "every list of orders and of offsets", "why_tests_cant": "Unbounded lists.", "anchors": ["marxs/reduction/osip.py:OSIPBase.apply_osip_all"]}
{"id": "C77", "title": "CircularMeshGrid fills the ring with elements that do not overlap", "statement": "The elements of a CircularMeshGrid cover every point between the inner and the outer radius and no two elements overlap.", "quantifier": "all inner and outer radii and element sizes", "why_tests_cant": "A test looks at one mirror radius and one facet size and at the plot; gaps at the rim depend on how the sizes divide.", "anchors": ["marxs/design/rowland.py:CircularMeshGrid.elemposyz"]}
{"id": "C78", "title": "Elements placed on a torus lie on the torus", "statement": "Every element position computed by ElementsOnTorus lies on the torus and on the line through its requested position along the optimisation axis, one element per requested position, in order; if one position has no solution there is no partial result. xyz_from_radiusangle returns a point on the torus with the requested polar coordinates.", "quantifier": "all tori, placements, optimisation axes, requested positions and root finders that return roots", "why_tests_cant": "The position comes out of a numerical search in global coordinates; tests only check a few positions on untilted tori.", "anchors": ["marxs/design/rowland.py:ElementsOnTorus.elempos", "marxs/design/rowland.py:RowlandTorus.solve_quartic", "marxs/design/rowland.py:RowlandTorus.xyz_from_radiusangle"]}
{"id": "C79", "title": "run_tolerances_for_energies2 wiggles what it split the instrument for", "statement": "run_tolerances_for_energies2(instrum, cls, ...) splits the elements of the instrument in front of the first element that is or contains an object of class cls (or of a subclass, on request), raises an exception if there is none, and wiggles exactly the outermost objects of that kind, all of which are in the second part.", "quantifier": "every instrument tree, every class, both settings of subclass_ok", "why_tests_cant": "Trees unbounded.", "anchors": ["marxs/design/tolerancing.py:run_tolerances_for_energies2", "marxs/simulator/simulator.py:first_of_class_top_level", "marxs/simulator/simulator.py:elements_of_class"]}
{"id": "C80", "title": "run_tolerances_for_energies covers the full grid and resets at the end", "statement": "run_tolerances_for_energies returns one row for each pair of energy and parameter set, energy by energy, with energy, wavelength, parameters and results of an evaluation on photons generated and pre-processed once for that energy; with a reset, the last call of the wiggle function is the reset, so the instrument is left as after a reset before the run; empty input is an exception.", "quantifier": "every list of energies and parameter sets, every wiggle function, instrument, source and analysis", "why_tests_cant": "Histories unbounded.", "anchors": ["marxs/design/tolerancing.py:run_tolerances_for_energies"]}
{"id": "C81", "title": "varyattribute changes existing attributes only", "statement": "varyattribute never creates an attribute, succeeds exactly if all names exist, then sets exactly the named attributes, and otherwise raises ValueError.", "quantifier": "every object and every set of keyword arguments", "why_tests_cant": "Continuum of objects and values.", "anchors": ["marxs/design/tolerancing.py:varyattribute"]}
{"id": "C82", "title": "Display settings are looked up in the element, then in its geometry", "statement": "For every display dictionary and key: a setting made for the element itself is used; otherwise the attribute of the same name of the element's geometry; if there is neither, [] raises KeyError and get returns the default.", "quantifier": "every dictionary, key and default", "why_tests_cant": "Histories of settings are unbounded.", "anchors": ["marxs/visualization/utils.py:DisplayDict"]}
{"id": "C83", "title": "The first shape known to the plotting package is drawn, and plotting has no lasting effect", "statement": "In the list of shapes the first one that is None or registered decides; a warning is given exactly when nothing is known about how to draw the object; plotting changes no setting other than the color and plotting again calls the same function with the same color.", "quantifier": "every registry, every list of shapes, every display dictionary, every number of plots", "why_tests_cant": "Unbounded lists and histories.", "anchors": ["marxs/visualization/utils.py:plot_object_general", "marxs/visualization/utils.py:get_color"]}
{"id": "C84", "title": "Plotting a container plots every element in it once", "statement": "For containers nested to any depth with default display settings, plotting the container adds to the scene exactly what plotting its innermost elements one after the other adds; one element that fails makes the plot fail.", "quantifier": "every tree of containers", "why_tests_cant": "Depth and width unbounded.", "anchors": ["marxs/visualization/x3d.py:container", "marxs/visualization/x3d.py:plot_object"]}
{"id": "C85", "title": "Faces of a parametric surface are the cells of its grid of points", "statement": "For every number of rows and columns the faces written to X3D are exactly the grid cells, each once, with four different existing points, and neighbouring cells share an edge.", "quantifier": "every grid size", "why_tests_cant": "Sizes unbounded.", "anchors": ["marxs/visualization/x3d.py:surface"]}
{"id": "C86", "title": "Rays are drawn as separate lines with their own value", "statement": "Lines connect only successive points of the same ray; in X3D each ray is drawn once with the color value given for it; values given per point use the value of the first point of each ray; wrong shapes raise ValueError.", "quantifier": "every number of rays and points, all values", "why_tests_cant": "Sizes unbounded.", "anchors": ["marxs/visualization/x3d.py:plot_rays", "marxs/visualization/mayavi.py:plot_rays"]}
{"id": "C87", "title": "The inner radius belongs to one geometry object", "statement": "Every plane with a hole has the r_inner it was made with, whatever other geometries are made before or after, and geometries without a hole have none.", "quantifier": "every sequence of geometries made in one program", "why_tests_cant": "History of constructions is unbounded.", "anchors": ["marxs/math/geometry.py:PlaneWithHole", "marxs/math/geometry.py:NoGeometry"]}
{"id": "C88", "title": "Boxes are closed and half boxes show the documented half", "statement": "For every display setting the corners are those of the full box or of the requested half, carried along with the placement; the faces (X3D) and triangles (mayavi) close the box: every side is drawn and every edge belongs to exactly two faces.", "quantifier": "every setting and placement", "why_tests_cant": "Continuum of placements, every string.", "anchors": ["marxs/visualization/utils.py:halfbox_corners", "marxs/visualization/x3d.py:box", "marxs/visualization/mayavi.py:box"]}
{"id": "C89", "title": "Circles, wedges and strips have the documented vertices", "statement": "Every vertex of a full circle is on the ellipse at equally spaced angles; for a wedge vertices inside the wedge are on the ellipse and others at the center; triangulating a parametric surface connects neighbouring rows.", "quantifier": "every number of vertices, all angles", "why_tests_cant": "Continuum of angles, sizes unbounded.", "anchors": ["marxs/math/geometry.py:xyz_circle", "marxs/visualization/utils.py:triangulate_parametricsurface"]}
{"id": "C90", "title": "Writing an archive leaves the scene unchanged whatever fails", "statement": "write_html_archive leaves the sources of the scene as they were, for failure at every step; a page that is written refers to local files that were downloaded; choosing an implementation sets sources that depend on the choice only, an unknown one is rejected without effect.", "quantifier": "every failure point, every scene, every sequence of choices", "why_tests_cant": "Crash points.", "anchors": ["marxs/visualization/x3d.py:Scene.write_html_archive", "marxs/visualization/x3d.py:Scene.set_X3D_implementation"]}
{"id": "C91", "title": "Booms absorb exactly the photons that hit a rod", "statement": "After a boom (Parallel of Rod elements) has been applied to a photon list, a photon has probability zero and the flag hitrod set exactly if its ray hits at least one of the rods; all other photons keep probability and every other column, independent of the number and order of the rods, and two booms in sequence act as one boom with the rods of both.", "quantifier": "every photon list, every list of rods", "why_tests_cant": "Unbounded photon lists and numbers of rods.", "anchors": ["marxs/missions/arcus/boom.py:Rod.process_photons", "marxs/missions/arcus/boom.py:ThreeSidedBoom"]}
{"id": "C92", "title": "L1 support layer: bar or grating", "statement": "In the L1 layer each photon either passes a support bar, then it keeps direction and polarization, is in order 0 and has the transmission of the bar as probability (Beer-Lambert rescaled table, in [0,1], ValueError outside of the table), or it is diffracted like by the plain grating. The fraction of random numbers that lead to a bar is barwidth/period.", "quantifier": "every photon, random number, energy table and dimension", "why_tests_cant": "Continuum of inputs.", "anchors": ["marxs/missions/mitsnl/catgrating.py:L1", "marxs/missions/mitsnl/catgrating.py:check_lx_dims"]}
{"id": "C93", "title": "Orders stored in a header are read back", "statement": "orders_from_meta returns exactly the list of orders that aeffRfromraygrid wrote into the header, and writing does not touch other keywords.", "quantifier": "every header and list of orders", "why_tests_cant": "Unbounded lists and arbitrary prior header contents.", "anchors": ["marxs/missions/arcus/analyze_grid.py:orders_from_meta", "marxs/missions/arcus/analyze_grid.py:aeffRfromraygrid"]}
{"id": "C94", "title": "A fixed pointing maps the sky rigidly to photon directions", "statement": "FixedPointing gives a photon from the target the direction along the optical axis for every roll, preserves angles between all sources, gives different directions to different sky positions, and orients the telescope so that the z axis points North for roll 0 and turns from North to East with the roll; the reference transform is applied to that.", "quantifier": "every pointing, roll, source position and rotation as reference transform", "why_tests_cant": "Continuum of inputs.", "anchors": ["marxs/source/pointing.py:FixedPointing.photons_dir", "marxs/source/pointing.py:FixedPointing.offset_coos"]}
{"id": "C95", "title": "Dither moves the target within the amplitudes and otherwise acts like a fixed pointing", "statement": "LissajousDither keeps offsets within the amplitudes and repeats with the periods; each photon gets the direction a fixed pointing at the instantaneous target would give; the distance of the target from the nominal one does not depend on the roll; zero amplitude reproduces FixedPointing including its reference transform; dither in roll works as documented and the pattern turns with the telescope.", "quantifier": "every dither, pointing and photon list", "why_tests_cant": "Continuum of inputs, unbounded lists.", "anchors": ["marxs/missions/chandra/dither.py:LissajousDither"]}
{"id": "C96", "title": "ACIS chips are where the corner table has them", "statement": "calculate_elempos places every chip such that its active surface has the tabulated corners (shifted by instrument origin, aimpoint and detector offset), with 1024 pixels per side and chip coordinates from 0.5 to 1024.5; the constructor accepts detector offsets; chips selects detectors by number.", "quantifier": "every corner table, aimpoint, offset, list of chips", "why_tests_cant": "Continuum of inputs, unbounded lists.", "anchors": ["marxs/missions/chandra/det_acis.py:ACIS.calculate_elempos", "marxs/missions/chandra/det_acis.py:ACIS.__init__", "marxs/missions/chandra/det_acis.py:ACISChip.specific_process_photons"]}
{"id": "C97", "title": "ACIS sky coordinates are independent of the roll", "statement": "For photons that follow the ray through the center of the mirror, ACIS DET coordinates are the tangent plane position along the telescope axes, and the SKY coordinates (x, y) are the tangent plane position of the source to the West and North of the target, for every roll written to the header by the pointing.", "quantifier": "every pointing, roll and source position", "why_tests_cant": "Continuum of inputs.", "anchors": ["marxs/missions/chandra/det_acis.py:ACISChip.specific_process_photons", "marxs/source/pointing.py:FixedPointing.process_photons"]}
{"id": "C98", "title": "Calculated orientation of parallel elements", "statement": "ParallelCalculated places one element per position, in order: its x axis along the normal given by normal_spec (a direction for all, a point towards which the normal is directed, or a function of the positions), its y axis in the plane of normal and parallel_spec, unit axes at right angles; specifications that are no homogeneous coordinate, or normals parallel to parallel_spec, are refused.", "quantifier": "every list of positions, every normal and parallel specification", "why_tests_cant": "Unbounded number of elements, continuum of positions and orientations, interplay of three kinds of specification.", "anchors": ["marxs/simulator/simulator.py:ParallelCalculated"]}
{"id": "C99", "title": "Elements on a torus sit on the torus and face along its normal", "statement": "Every element that ElementsOnTorus places is on the surface of the Rowland torus, at the distance from the axis in the torus it was requested for, with its x axis along the normal of the torus and its y axis perpendicular to the symmetry axis of the torus.", "quantifier": "every torus in every position, every list of requested coordinates", "why_tests_cant": "Continuum of tori and positions; depends on a root finder.", "anchors": ["marxs/design/rowland.py:ElementsOnTorus"]}
{"id": "C100", "title": "The detector made from a Rowland torus stands on the Rowland circle", "statement": "Cylinder.from_rowland returns a cylinder whose mid circle is exactly the Rowland circle of the torus; a circular detector on it reports pixel coordinates that are the arc length along the Rowland circle from the position given by rotation and the height above it, divided by the pixel size.", "quantifier": "every torus in every position, every width, rotation and photon ray", "why_tests_cant": "Continuum of tori and rays.", "anchors": ["marxs/math/geometry.py:Cylinder.from_rowland", "marxs/optics/detector.py:CircularDetector"]}
{"id": "C101", "title": "Projection onto a plane and the table of facets", "statement": "ProjectOntoPlane gives the coordinates, in units along the axes of the plane, of the foot point of the perpendicular from each position, so that moving along the normal changes nothing; facet_table lists every element of a container once, in order, with its position in space and the projected Cartesian and polar coordinates of that position.", "quantifier": "every plane, container and list of elements and photons", "why_tests_cant": "Unbounded number of elements and photons, continuum of positions.", "anchors": ["marxs/analysis/coords.py:ProjectOntoPlane", "marxs/analysis/coords.py:facet_table"]}
{"id": "C102", "title": "Photon lists of sources are complete and consistent", "statement": "Source.generate_photons returns a photon list whenever flux, energy and polarization give results: exactly one photon per time, in order, with the energy and polarization angle that belong to it, probability one, and the exposure time in the header; every failure is a failure of one of the three specifications, and no photon list is returned then.", "quantifier": "every source specification, exposure time and random numbers", "why_tests_cant": "Unbounded photon lists; user-supplied functions for flux, energy and polarization.", "anchors": ["marxs/source/basesources.py:Source.generate_photons", "marxs/source/basesources.py:Source.__init__"]}
{"id": "C103", "title": "Sky sources put photons where the source is", "statement": "PointSource, RadialDistributionSource, DiskSource, SphericalDiskSource and GaussSource place every photon at the drawn offset to the East and North of the position of the source, independent of where on the sky it is and in which coordinate system it is given; photons of disks are within the outer radius; all other columns are those of the base source.", "quantifier": "every position, coordinate frame, exposure time and random numbers", "why_tests_cant": "Continuum of positions including the poles and rotated frames.", "anchors": ["marxs/source/basesources.py:PointSource", "marxs/source/basesources.py:RadialDistributionSource", "marxs/source/basesources.py:GaussSource", "marxs/source/basesources.py:AstroSource.set_pos"]}
{"id": "C104", "title": "The F-shaped source has the shape, size and place requested", "statement": "SymbolFSource places photons on the three bars of a letter F that starts at the position of the source and has the requested angular size, for every position, coordinate system and size.", "quantifier": "every position, frame, size, exposure and random numbers", "why_tests_cant": "Continuum of positions, frames and sizes.", "anchors": ["marxs/source/basesources.py:SymbolFSource"]}
{"id": "C105", "title": "Pointing a photon list", "statement": "FixedPointing gives every photon in a list from a sky source the direction of flight into the telescope and the polarization vector (unit length, perpendicular to the direction, angle from North to East), records the pointing in the header, changes no other column, refuses lists that already have directions; JitterPointing displaces photons from the optical axis by exactly the drawn angle, for any reference transform.", "quantifier": "every photon list, pointing, roll, reference transform, jitter and random numbers", "why_tests_cant": "Unbounded lists, continuum of directions; repeated calls.", "anchors": ["marxs/source/pointing.py:FixedPointing.process_photons", "marxs/source/pointing.py:JitterPointing.process_photons", "marxs/source/pointing.py:PointingModel.add_dir"]}
{"id": "C106", "title": "monoenergetic_astrosimulation delivers the photons it promises", "statement": "monoenergetic_astrosimulation hands the instrument the requested number of photons (rounded up), all on the optical axis after the reference transform, with the requested energy, probability one and a perpendicular unit polarization vector, and returns what the instrument returns.", "quantifier": "every instrument, energy, number of photons, reference rotation and random numbers", "why_tests_cant": "Arbitrary instrument and number of photons; end to end over source, pointing and instrument.", "anchors": ["marxs/analysis/run_helpers.py:monoenergetic_astrosimulation"]}
{"id": "C107", "title": "Photons enter through the opening of an aperture", "statement": "A photon list that goes through a rectangular or circular aperture keeps its photons and their order; every photon gets a starting position inside the opening, its probability is multiplied with the projected area (zero from behind), and nothing else changes. In a group of apertures every photon goes through exactly one aperture and carries its number; pre- and postprocess steps of the group see just the photons that pass the aperture.", "quantifier": "every photon list, aperture, orientation, group of apertures and random numbers", "why_tests_cant": "Continuum of positions and directions; unbounded lists and groups.", "anchors": ["marxs/optics/aperture.py:BaseAperture.__call__", "marxs/optics/aperture.py:FlatAperture.specific_process_photons", "marxs/optics/aperture.py:RectangleAperture", "marxs/optics/aperture.py:CircleAperture", "marxs/optics/aperture.py:MultiAperture"]}
{"id": "C108", "title": "Filters and detector energies act on the photons that hit", "statement": "An EnergyFilter multiplies the probability of each photon that hits it with the value of the filter function at its energy and leaves photons that miss it alone; a value outside of 0 to 1 is an error; if all photons hit, it agrees with GlobalEnergyFilter. CCDRedistNormal assigns each photon that hits the detector its energy plus the tabulated width times a normal deviate.", "quantifier": "every photon list, filter function, table of widths, pattern of hits and random numbers", "why_tests_cant": "Arbitrary functions and hit patterns; unbounded lists.", "anchors": ["marxs/optics/filter.py:EnergyFilter", "marxs/optics/filter.py:GlobalEnergyFilter", "marxs/optics/detector.py:CCDRedistNormal"]}
{"id": "C109", "title": "The MARX mirror hands photons back under their own names", "statement": "MarxMirror returns one row per photon, ordered by number, combining what the C code returned for a photon (turned back into global coordinates) with what was known of the same photon before, for every order in which the C code returns them; blocked photons get probability zero and others keep theirs; the polarization is transported from the direction before to the direction behind the mirror; photons that the C code drops are left out; the input list is not changed.", "quantifier": "every photon list, every behaviour of the C code, every position and orientation of the mirror", "why_tests_cant": "The C code is arbitrary; unbounded lists, continuum of orientations.", "anchors": ["marxs/optics/marx.py:MarxMirror.process_photons"]}
{"id": "C110", "title": "The best detector position is where the photons come together", "statement": "For each trial position of the detector, the quantity that find_best_detector_position minimizes is the mean distance of the points where the photons pass the detector plane from their center of mass. It depends on the plane only. If all photons fly through one point, it is zero at the position of this point and, if they come from different directions, positive everywhere else. It is a number if and only if there are photons and all of them reach the detector flying forward.", "quantifier": "every photon list, every orientation and trial position of the detector", "why_tests_cant": "Continuum of positions, directions and orientations; unbounded lists.", "anchors": ["marxs/analysis/analysis.py:mean_width_2d", "marxs/analysis/analysis.py:find_best_detector_position"]}
{"id": "C111", "title": "Bent gratings touch the flat gratings they replace", "statement": "bend_gratings turns each grating of each stack into a sheet that is bent to the given radius in the dispersion direction only, touches the flat grating in its center with the same tangent plane and the same grooves, and covers the opening of the flat grating seen from the center of the circle. It works for single gratings and for stacks.", "quantifier": "every list of gratings or stacks, every position, orientation and size, every radius", "why_tests_cant": "Continuum of placements and radii; unbounded lists.", "anchors": ["marxs/design/bendgratings.py:bend_gratings"]}
{"id": "C112", "title": "Chirps bring photons from all over a grating to the same place", "statement": "A chirp finder sends photons of the specified energy and order through the center and all requested positions of the grating, aimed at the origin, and each correction is the minimum found for the distance of the place where the photon is detected to the place where the central photon is detected. The chirped grating has, at each position used, the grating constant found there. The finder for bent gratings does the same for cylinders.", "quantifier": "every grating, detector, minimization algorithm, list of positions, order, energy and grating constant", "why_tests_cant": "Arbitrary algorithms and detectors; continuum of gratings; state is carried from one run to the next.", "anchors": ["marxs/design/bendgratings.py:NumericalChirpFinder", "marxs/design/bendgratings.py:BendNumericalChirpFinder", "marxs/design/bendgratings.py:chirp_gratings", "marxs/utils.py:generate_test_photons"]}
{"id": "C113", "title": "Resolving power order by order", "statement": "resolvingpower_per_order sends the same photons through the gratings once for each order and reports, for each order, the FWHM of the photons that went to this order and their distance from order zero in units of the FWHM. The result for an order does not depend on the other orders in the list, nor on the unit and origin of the detector coordinate, nor on photons that were lost before. The only side effect is on the order selectors of the gratings.", "quantifier": "every photon list, grating structure, detector, list of orders and statistics function", "why_tests_cant": "Arbitrary gratings and detectors; unbounded lists of photons and orders.", "anchors": ["marxs/analysis/gratings.py:resolvingpower_per_order"]}
{"id": "C114", "title": "Tolerancing functions treat lists of gratings one by one", "statement": "varyperiod and varyorderselector accept one grating or a list; each grating of a list gets its own random period or its own new order selector and nothing else changes; an object without the attribute is an error. New elements made by later tolerancing moves of a container have the original values.", "quantifier": "every list of elements, every stream of random numbers", "why_tests_cant": "Unbounded lists; state of the random number generator.", "anchors": ["marxs/design/tolerancing.py:oneormoreelements", "marxs/design/tolerancing.py:varyperiod", "marxs/design/tolerancing.py:varyorderselector", "marxs/simulator/simulator.py:Parallel.generate_elements"]}
{"id": "C115", "title": "Bar tilt and the rotation that compensates it belong together", "statement": "wiggle_and_bar_tilt gives each CAT grating a bar tilt of at most max_bar_tilt and rotates the same element back by the same angle, in addition to the random misalignment, so that the blaze angle of photons is that of a grating without tilt. Containers that do not have one CAT grating per element are rejected. Order selectors for wavy gratings look up efficiencies at a randomly changed blaze angle.", "quantifier": "every container, tilt, misalignment and photon direction", "why_tests_cant": "Continuum of angles and directions; random draws.", "anchors": ["marxs/missions/mitsnl/tolerances.py:wiggle_and_bar_tilt", "marxs/missions/mitsnl/tolerances.py:OrderSelectorWavy", "marxs/missions/mitsnl/tolerances.py:OrderSelectorTopHat", "marxs/missions/mitsnl/catgrating.py:NonParallelCATGrating"]}
{"id": "C116", "title": "Effective area of Arcus", "statement": "mkarf multiplies, for each energy bin, the areas of mirror and gratings, the filters and the number of selected channels in which the dispersed ray really passes between the two edges of a CCD. Bins are those of an RMF made from the same edges; the area of a combination of channels is the sum of the areas of the parts; areas are never negative, and 0 where the grating equation has no solution; unknown channels are an error.", "quantifier": "every grid of energies, order, list of channels, table of CCD corners and efficiency curves", "why_tests_cant": "Continuum of wavelengths, arbitrary CCD layouts and curves.", "anchors": ["marxs/missions/arcus/arfrmf.py:OnCCD", "marxs/missions/arcus/arfrmf.py:mkarf"]}
{"id": "C117", "title": "Names of OGIP files identify their content", "statement": "Two response files have the same name only if kind, order(s) and, for Arcus, channels agree; missing keywords are an error; files written by one run of apply_osip_all never overwrite each other or the input files. Tools that build the name from integer orders find the files.", "quantifier": "every order (all integers), channel list and header", "why_tests_cant": "Unbounded integers and arbitrary strings; injectivity cannot be tested.", "anchors": ["marxs/reduction/ogip.py:ogip_filename", "marxs/missions/arcus/arfrmf.py:filename_from_meta", "marxs/reduction/osip.py:FixedWidthOSIP"]}
{"id": "C118", "title": "OGIP headers are complete", "statement": "ARF and RMF files are written if and only if the telescope is identified in the header, and carry the keywords that classify them as ARF, matrix or energy bounds; required columns are checked, other keywords are kept; a written matrix reads back as the same table; DETCHANS is the number of channels; PHA spectra can be written and read.", "quantifier": "every header, set of columns and number of rows", "why_tests_cant": "Arbitrary headers and tables.", "anchors": ["marxs/reduction/ogip.py:ARF", "marxs/reduction/ogip.py:PHAI", "marxs/reduction/ogip.py:RMF"]}
{"id": "C119", "title": "Line spread functions redistribute, they do not create", "statement": "The model made from the parameters of a line spread function has one component per column with fractions that are positive and add up to 1; a redistribution matrix made from it has no negative entries and each row adds up to at most the enclosed energy fraction. Matrices made from a table of Gaussian widths contain the Gaussian around the wavelength of the bin with the interpolated width, and the table is never extrapolated. Tables may give wavelength or energy. Models can be converted to file format and back.", "quantifier": "every parameter row, cumulative profile, grid of bins, threshold and energy", "why_tests_cant": "Continuum of parameters; unbounded number of components and bins.", "anchors": ["marxs/reduction/lsfparm.py:sherpa_from_spline", "marxs/reduction/lsfparm.py:caldb2sherpa", "marxs/reduction/lsfparm.py:sherpa2caldb", "marxs/reduction/ogip.py:RMF.from_Gauss_sigma"]}
{"id": "C120", "title": "Complete CAT gratings", "statement": "A photon that hits a CAT grating with L1 and L2 support passes through all parts at one point: the order selector of the membrane is asked with energy, polarization and blaze angle; the direction follows the grating equation with positive orders on the side to which the photon flies; then it either hits an L1 bar (transmission for its energy, direction kept) or is diffracted along the bars of the membrane; the L2 mesh absorbs and blurs. The final probability is the product of all factors, the final direction has unit length and deviates by the angle recorded. Photons sent to an evanescent order are lost (NaN). A grating without order selector or with bars wider than the period cannot be made.", "quantifier": "every position, groove angle, support dimensions, order selector, photon and sequence of random numbers", "why_tests_cant": "Continuum of directions and energies and all random draws; five interacting layers.", "anchors": ["marxs/missions/mitsnl/catgrating.py:CATL1L2Stack", "marxs/missions/mitsnl/catgrating.py:L1", "marxs/missions/mitsnl/catgrating.py:L2Diffraction"]}
{"id": "C121", "title": "CAT gratings with tilted walls", "statement": "In a grating with walls that are not parallel the blaze angle changes linearly with the distance to the centre in the dispersion direction and not along the bars.", "quantifier": "every grating position, groove angle, photon and pair of points", "why_tests_cant": "Continuum of points and angles.", "anchors": ["marxs/missions/mitsnl/catgrating.py:NonParallelCATGrating"]}
{"id": "C122", "title": "Booms are trusses", "statement": "The rods of a boom form a truss along the x axis: for every bay and side a longeron along an edge of a prism over a regular polygon with sides of the length of the battens, a batten along the side of the polygon at the bottom of the bay, and two diagonals that join the corners of this side of the bay; each rod has the diameter given. The dimensions can be changed; unknown names are refused.", "quantifier": "every set of boom dimensions, every number of bays and first bay, every side", "why_tests_cant": "Continuum of dimensions; any number of bays.", "anchors": ["marxs/missions/arcus/boom.py:ThreeSidedBoom", "marxs/missions/arcus/boom.py:FourSidedBoom"]}
{"id": "C123", "title": "Booms absorb photons that hit a rod", "statement": "A photon whose ray hits a rod of the boom gets probability zero and is marked in the column hitrod, all other photons stay as they are. A boom that is rotated and shifted absorbs with the rotated and shifted rods.", "quantifier": "every placement of a boom, every list of rods, every list of photons", "why_tests_cant": "Continuum of rays; any number of rods and photons.", "anchors": ["marxs/missions/arcus/boom.py:Rod", "marxs/missions/arcus/boom.py:ThreeSidedBoom.pos_spec", "marxs/math/geometry.py:Cylinder.intersect"]}
{"id": "C124", "title": "Gratings from a table of facets", "statement": "A petal of gratings made from a table has one window per number of mirror module, in ascending order, and in each window one grating per row of the table with that number, in the order of the table. Each point of a grating is where the table says it is, mirrored for the channel; the position given for the petal is applied relative to the mean position of all facets. Each grating has the period given in its row; its number counts on from the number of the first facet in its window. An empty table and a position without inverse are refused.", "quantifier": "every table of facets with orthonormal vectors and positive sizes, every channel, every invertible position of the petal", "why_tests_cant": "Continuum of positions and orientations; tables of any length.", "anchors": ["marxs/missions/arcus/ralfgrating.py:CATfromMechanical", "marxs/missions/arcus/ralfgrating.py:CATWindow", "marxs/simulator/simulator.py:Parallel.generate_elements"]}
{"id": "C125", "title": "Camera of Arcus", "statement": "For every geometry of the tori, start angle and size of the CCDs for which the camera fits on the lower part of the circle, the camera has 16 CCDs with the numbers 1 to 16 that increase from -x to +x and the pixel size of the configuration. The CCDs are tangential to the detector circle, face its center, and are 2.15 or 4 mm apart; the second strip is offset. No two CCDs have a point in common. A camera is only made if the configuration asks for 16 CCDs.", "quantifier": "every distance of channels, radius, focal length, start angle, size of CCD and pixel (for the number of CCDs: every configuration)", "why_tests_cant": "Tests build the one camera of the default configuration and run photons through it; that CCDs never overlap and are ordered is a statement about all points of all CCDs for all geometries.", "anchors": ["marxs/missions/arcus/arcus.py:DetCamera", "marxs/simulator/simulator.py:ParallelCalculated"]}
{"id": "C126", "title": "Mirrors made of SPOs", "statement": "The mirror of an Arcus channel has one SPO per row of the table, in the order of the table, numbered from the offset of the channel, at the radius and clocking angle of its row around the optical axis of the channel, turned by 180 degrees for channels without a 1 in their name. All SPOs of a channel have the same optical axis: photons from one direction that hit SPOs with the same focal length meet in one point, which for photons along the axis and a focal length of 12 m is the configured position of the channel. Channels that are not in the configuration are refused.", "quantifier": "every table of SPOs with positive sizes, every set of channels, every photon direction and hit position", "why_tests_cant": "Tests use the one table of the calibration files and check image sizes statistically; that all SPOs share one focus must hold for every table, channel and hit position.", "anchors": ["marxs/missions/athena/spo.py:spogeom2pos4d", "marxs/missions/athena/spo.py:SPOChannelMirror", "marxs/missions/arcus/arcus.py:SimpleSPOs", "marxs/optics/mirror.py:PerfectLens"]}
{"id": "C127", "title": "Apertures above the SPOs", "statement": "Each channel of Arcus has a rectangular aperture above its SPOs. Its size covers all centers of the SPOs with a margin, and every photon along the optical axis that would hit an SPO of the channel passes its aperture. Unknown channels and an empty table are refused.", "quantifier": "every table of SPOs, every set of channels, every photon along the axis", "why_tests_cant": "Photons are only generated in the aperture, so photons that miss it never appear in a test; the effective area would just be too small.", "anchors": ["marxs/missions/arcus/spo.py:zoom_to_cover_all_spos", "marxs/missions/arcus/spo.py:rmid_spo", "marxs/missions/arcus/arcus.py:Aperture"]}
{"id": "C128", "title": "The gratings of Chandra", "statement": "The HETG has one grating per row of the design table, in the order of the table, named and numbered like the rows. Each grating covers the facet at the place given in the table, with the side length of its shell, and moving the HETG moves all gratings around the hinge point. The grooves run along the grating lines of the table: a photon in order m keeps its component along them, and its component along the dispersion direction of the table changes by m times the wavelength over the period, which is that of the MEG for facets on outer shells and that of the HEG for the others. Location codes that do not start with a digit are refused.", "quantifier": "every table of 336 right-handed facets, every position of the HETG, every order selector, photon direction and energy", "why_tests_cant": "Tests compare a handful of facets of the one data file; sign errors in the groove angle or the handedness only show for facets at other azimuths and both must hold for every facet, photon and order.", "anchors": ["marxs/missions/chandra/hess.py:HETG", "marxs/optics/grating.py:FlatGrating", "marxs/simulator/simulator.py:Parallel.move_center"]}
{"id": "C129", "title": "Completing the header of a Chandra file", "statement": "Completing a header only fills in keywords that are missing; the only values that change are those for the redundant keywords TSTART, TSTOP and OBS-MJD, also when an exception is raised on the way. Afterwards all keywords for configuration control and timing are set: content and classes as asked for, the start as the time in DATE-OBS and the stop later by EXPOSURE. Headers without EXTNAME or EXPOSURE are refused. (Documented but violated: keywords about the observation are never added, the defaults for content and classes do not work, and event lists cannot be written at all.)", "quantifier": "every header, content, list of classes, clock and table of photons", "why_tests_cant": "Tests complete one empty header; they do not try all keywords that could be set before, nor all ways in which the function can stop half way.", "anchors": ["marxs/missions/chandra/fitsheaders.py:complete_header,complete_CC,complete_T,complete_O,add_evt_column_header", "marxs/missions/chandra/chandra_global.py:Chandra.write_evt"]}
{"id": "C130", "title": "Order of columns in an event file", "statement": "The order of columns in an event file lists each column of the table exactly once. It starts with pairs of columns that end on x and y, x directly before y; pairs for chip, tdet, det, and sky come first, in this order, whatever the case of the letters. It goes on with right ascension directly before declination, and all other columns follow in alphabetical order. (Violated: the table itself is never sorted since the function always ends with an exception, and the order of other pairs is not repeatable.)", "quantifier": "every list of column names and every order in which Python lists the elements of a set", "why_tests_cant": "The order of a Python set changes from run to run, so a test sees one order of the many that are possible.", "anchors": ["marxs/missions/chandra/fitsheaders.py:sort_columns"]}
{"id": "C131", "title": "Telescopes from configurations that share dictionaries", "statement": "Grating structures write calculated values into a dictionary that belongs to their configuration, and configurations made by copying share it. Still a structure depends on its own configuration only: after any sequence of other constructors, with whatever configuration and even if some of them raise an exception, the keywords and arguments for the elements (or the exception) are the same as in a fresh session; size, torus, orientation and range of radii are those of its own configuration. Structures that exist already are not changed by what is built later.", "quantifier": "every session: any number of configurations that share dictionaries in any way, any history of constructors, any calculation of sizes and radii", "why_tests_cant": "Tests build one telescope per process; what leaks from one configuration to another shows only for a certain order of constructors.", "anchors": ["marxs/missions/lynx/lynx.py:LynxGAS", "marxs/missions/athena/athecat.py:GAS", "marxs/missions/arcus/ralfgrating.py:RegularGrid", "marxs/simulator/simulator.py:Parallel"]}
{"id": "C132", "title": "Alignment budgets", "statement": "Reformatting a budget fills in one list of numbers per row and changes nothing else: each number is the specified one in the units and sigma the simulation needs, scaled for global rows by the factor or by a random number used only once; it can be repeated with a new factor. A telescope built with a budget has every structure displaced by the last global row, and the elements of every structure displaced at random with the standard deviations of the last individual row, that name the class of the structure, as long as no later row names a structure around it; objects not named stay as they were. It is built if and only if every row fits. (Not documented: a row for an outer structure undoes what earlier rows did to the inner ones, and everything that was set on elements before, e.g. chirps, is lost.)", "quantifier": "every budget (any number and order of rows and numbers per row), every telescope with structures nested to any depth, every stream of random numbers", "why_tests_cant": "Tests use the one budget in the code and check that the telescope runs; that a row is undone by a later one only shows for other orders, and displacements are random.", "anchors": ["marxs/missions/arcus/arcus.py:reformat_randall_errorbudget,Arcus", "marxs/missions/lynx/lynx.py:reformat_errorbudget,Lynx", "marxs/missions/AXIS/AXIS.py:AXIS", "marxs/design/tolerancing.py:wiggle,moveglobal"]}
{"id": "C133", "title": "Grating efficiencies interpolated from a table are probabilities and agree with the table", "statement": "An InterpolateEfficiencyTable made from a table on a full grid of wavelengths and angles returns, for a photon at a point of the grid, exactly the efficiencies in the table; between the points it interpolates linearly in wavelength and in angle (per order, with the four corners of the cell the photon is in); outside of the grid it returns the values on the nearest edge. If the table has efficiencies which are not negative and not more than 1 for all orders together, the same is true for every photon of any energy and blaze angle, the survival probability is the sum over the orders, and each order is drawn with its share. Tables whose wavelengths or angles do not increase or which have a single wavelength or angle are rejected.", "quantifier": "every table (any number of wavelengths, angles and orders), every energy and blaze angle, every random number", "why_tests_cant": "Tests look up a few energies in one table from the package; that no photon gains probability and that rows and columns of the grid are not mixed up must hold for every table and everywhere in and outside of the grid.", "anchors": ["marxs/missions/mitsnl/catgrating.py: InterpolateEfficiencyTable", "marxs/utils.py: tablerows_to_2d"]}
{"id": "C134", "title": "Efficiency of the metashells of the Lynx mirror", "statement": "In the Lynx telescope the probability of every photon that enters through the ring of a metashell should be multiplied once with the efficiency of that metashell at the energy of the photon: effective area from the table (interpolated in energy) over the area of the ring, cut to [0, 1]. Everything else in the photon list stays as it is; energies outside of the table raise ValueError; areas of the rings times efficiency add up to the effective area in the table. (Found to be wrong: the aperture numbers shells from 0 while the efficiency expects serial numbers from 1, so the first shell gets no reduction and every other shell gets the efficiency of its neighbour; efficiencies are looked up by the position in the table, so a table in another order gives efficiencies of other shells, and one with gaps in the serial numbers gives an IndexError.)", "quantifier": "every set of shells (any number, radii, efficiency tables), every photon list, all random numbers", "why_tests_cant": "There are no tests for Lynx. Whether the efficiency of the right shell is used needs a comparison photon by photon for every shell and energy; the total flux hardly changes.", "anchors": ["marxs/missions/lynx/mirror.py: MetaShellAperture, MetaShellEfficiency", "marxs/optics/aperture.py: MultiAperture"]}
{"id": "C135", "title": "Grating coordinates on the circular detector of Arcus", "statement": "For an event on the circular detector of Arcus tg_r is the dispersion angle, i.e. the angle between zeroth order and event seen from any grating on the Rowland circle, and tg_mlam is order times wavelength by the grating equation up to d sin(blaze) (1 - cos tg_r); zeropos gives the only point of the lower half of the detector that is on the optical axis of the channel, and for channels at distance d from the middle it is in the focal plane; events there have tg_r = tg_d = tg_mlam = 0; names of other coordinates raise NotImplementedError. (Found to be wrong: tg_d is not 0 for zeroth order events because circ_y is minus y on this detector; the distance between grating and event uses cos of the full angle instead of half of it, so tg_d is too large; the zeroth order is taken from the default configuration and not from the argument.)", "quantifier": "every position on the detector, every channel, every configuration, every grating on the Rowland circle", "why_tests_cant": "There are no tests for this function; whether a single angle is right for all gratings on the circle is a statement of geometry (inscribed angles) about a continuum of points.", "anchors": ["marxs/missions/arcus/analyze_grid.py: zeropos, tg_resolve_events_circdet", "marxs/missions/arcus/arcus.py: PerfectArcus.add_detectors"]}
{"id": "C136", "title": "Radius of the cone of light from one mirror shell", "statement": "find_radius_of_photon_shell returns percentiles of the distances from the optical axis at which the photons of the given shell cross the plane at x: at most q percent are below and at most 100-q percent are above the value, 0 is the smallest and 100 the largest radius, and values grow with the percentile. Photons of other shells, absorbed photons and the order of the photons make no difference. For light that converges to the focal point at 0 the radii are |x| times percentiles of the slopes of the rays. Percentiles outside of 0 to 100 are refused. (Found to be wrong: for photons that have already passed the plane at x the result is NaN for all percentiles, or, if the photon list has been on a detector before, made from positions on that other detector.)", "quantifier": "every photon list (any number of photons, directions, positions, shells, probabilities), every distance x and every list of percentiles", "why_tests_cant": "The test has one photon list from one shell and compares two percentiles with a number; the meaning of percentiles and the scaling of the cone need all lists and all distances.", "anchors": ["marxs/design/rowland.py: find_radius_of_photon_shell", "marxs/optics/detector.py: FlatDetector"]}
{"id": "C137", "title": "Openings are drawn where photons can pass", "statement": "In the drawing of a frame with a rectangular opening (rectangular apertures), a photon that crosses the plane of the frame inside of its outer edge either passes the opening or crosses at a place that is drawn, and both only on the edge of the opening. (Found to be wrong for baffles: the drawing of a baffle stands on the plane that stops the photons, turned by 90 degrees, and of that plane only a line is drawn.)", "quantifier": "every placement (position, orientation, zoom), every outer factor of at least one, every photon", "why_tests_cant": "Drawings are compared with literal coordinates for one aperture at the origin; agreement with the photons that pass needs every placement and every ray.", "anchors": ["marxs/optics/baffles.py: Baffle.triangulate_inner_outer", "marxs/math/geometry.py: RectangleHole"]}
{"id": "C138", "title": "Scenes written as json are drawn in the browser at the right place", "statement": "The page made from the json output shows each element of the file in order: a box has each of its points where the placement of the element puts it; a triangulation has the same points and triangles; rays are one line each with their points in order and each point has the color for its own value; the material has exactly the display settings that three.js knows; values of a wrong shape are a ValueError; for a torus each cell of the grid of angles is drawn as two triangles. (Found to be wrong: a torus is drawn around another axis, always at the origin, and with the default settings only a small part of it; meshes with more than 65536 points are drawn with wrong triangles; containers, photon lists without photons, and files with a header from a photon list raise exceptions.)", "quantifier": "every placement, mesh, set of rays, values, display settings and torus", "why_tests_cant": "Tests compare literal json for one element each, with the torus at the origin and with the unit matrix, and never read the output in the page.", "anchors": ["marxs/visualization/threejsjson.py: box, triangulation, torus, plot_rays, container, write", "marxs/visualization/threejs.py: materialdict, _format_plot_rays_input", "marxs/visualization/threejs_files/MARXSloader.js", "marxs/visualization/threejs_files/ModifiedTorusBufferGeometry.js"]}
{"id": "C139", "title": "Reflectivity of multi-layer mirrors follows the files", "statement": "For a MultiLayerMirror, at a place and energy listed in the files a photon at the listed wavelength of the peak is reflected with the listed reflectivity (percent, divided by the fraction of polarized light in the test), and half a full width away with half of that; places are counted in mm from the edge of the mirror and energies in eV. If the listed values are possible, the result for every photon at every place and energy is a probability. For light without polarization the average of the probabilities for two perpendicular polarizations is half of the value for the layers, so files made with light without polarization (fraction 0.5) are reproduced.", "quantifier": "every pair of files, every size, placement and orientation of the mirror, every photon energy, direction and polarization", "why_tests_cant": "Tests compare a few photons with numbers for one pair of files; the normalisation of positions, widths and polarization has to hold for all files and photons.", "anchors": ["marxs/optics/multiLayerMirror.py: MultiLayerEfficiency, MultiLayerMirror"]}
{"id": "C140", "title": "Histogram and table for fits of a line spread function", "statement": "fit_LSF sorts photons into bins of equal width without gaps that start d_wave below the mean wavelength; each bin has the sum of the probabilities of the photons in it and an error of at least one (the square root of the sum if that is larger), and the sum over all bins is the sum of the probabilities of all photons in the range. The table for the results has one column for each component of the model, for increasing wavelengths each box contains its own wavelength and reaches its neighbours, and components with equal names or of other types are refused. (Found to be wrong: the range is not d_wave to both sides, the last bin is missing; photons with probability 0 move the range; a table for one wavelength cannot be made and for decreasing wavelengths the lower end of the box is above the upper end.)", "quantifier": "every event list (any number of photons, wavelengths and probabilities), bin width and range; every list of wavelengths and components", "why_tests_cant": "Tests compare a fit to one simulated line with tolerances; where photons are lost between bins or at the ends needs all lists and bin widths.", "anchors": ["marxs/reduction/lsfparm.py: fit_LSF, empty_lsfparmtable"]}
{"id": "C141", "title": "Detectors behind each other see the same ray", "statement": "The detectors, projections and propagators at the end of a telescope never fail on a table of photons, change no column but their own and the position, and leave each photon on its ray. A flat detector behind a Propagator(-D) records every photon at the point where its ray (as a line) crosses the detector, or NaN if it does not, no matter which detectors it hit before, if none of them stands more than D behind; so detinf_x, detinf_y of AXIS, Lynx and Athena, microcal of Lynx and zero of Athena do not depend on the CCDs. (Found to be wrong: in Arcus photons are not moved back between the CCDs and the detector in the focal plane, so that photons detected on CCDs below the focal plane are missing there; AXIS imaging and Athena zero use the same columns for mm and pixels, so the pixels are lost.)", "quantifier": "every table of photons with any positions and directions, every list of detectors (flat or cylindrical, any place and size), projections and propagators, in any order, and every number of CCDs", "why_tests_cant": "Tests run a few photons through one mission; whether a result depends on what was hit before needs all rays, all orders of elements and all positions.", "anchors": ["marxs/optics/detector.py: FlatDetector, CircularDetector", "marxs/simulator/simulator.py: Propagator", "marxs/analysis/coords.py: ProjectOntoPlane", "marxs/missions/AXIS/AXIS.py: PerfectAXIS.add_detectors", "marxs/missions/lynx/lynx.py: PerfectLynx.add_detectors", "marxs/missions/athena/athecat.py: PerfectAthecat.add_detectors", "marxs/missions/arcus/arcus.py: PerfectArcus.add_detectors"]}
{"id": "C142", "title": "Response of the zero order of Arcus", "statement": "mkrmf0 makes a matrix for every table of positive widths; the response it stores for an energy is, apart from values not above the threshold, the probability that a Gaussian around the centre of the bin falls in each channel, with the width (eV) read from the table at the centre of the bin or the closest tabulated energy; the response is never negative and adds up to at most one. FiltersQE gives the product of the three filters, contamination and quantum efficiency, between 0 and 1, zero outside of any curve, and inside it is the factor by which a simulation multiplies the probability of a photon. (Question in the source, 'Can I replace this with from_Gauss_sigma?': no, its response on the same channels is never symmetric in energy.)", "quantifier": "every list of edges in energy or wavelength, every table of widths, every threshold, every set of curves, all energies and probabilities", "why_tests_cant": "mkrmf0 has no test, and a test of the sum or of a width would use one table and one set of channels.", "anchors": ["marxs/missions/arcus/arfrmf.py: mkrmf0, FiltersQE", "marxs/missions/arcus/arcus.py: FiltersAndQE", "marxs/reduction/ogip.py: RMF.arr_to_rmf_matrix_row, RMF.from_Gauss_sigma"]}
{"id": "C143", "title": "Telescopes of the missions", "statement": "The constructors of Lynx, AXIS, Athena and Arcus (and their variants for plots and for SIXTE) put aperture, mirror, gratings, filters, detectors and the version tag in the order of the light path, with one mirror and one grating petal per channel. With entries for a chirp every grating is chirped for the order and energy given there and the circle of the telescope's own torus (holds for AXIS with the default torus; in Lynx and Athena no grating is ever chirped, and the circle is always that of the default configuration). Telescopes with misalignments can be made from the configurations of the modules (holds for Lynx() and Arcus(); AXIS(), Lynx(conf_5050) and Lynx(conf_chirp) always fail) and then every structure named in the budget is moved by the amounts given there.", "quantifier": "every number of shells, SPOs, gratings, windows and CCDs, every set of channels, every configuration, budget and stream of random numbers", "why_tests_cant": "Constructors need calibration files that are not in the repository; tests look at a single telescope, and that a search finds no grating is not visible in any output column.", "anchors": ["marxs/missions/lynx/lynx.py: PerfectLynx, LynxForPlot, Lynx, conf, conf_5050, conf_chirp", "marxs/missions/AXIS/AXIS.py: PerfectAXIS, AXISForPlot, AXIS", "marxs/missions/athena/athecat.py: PerfectAthecat, AthecatForPlot", "marxs/missions/arcus/arcus.py: PerfectArcus, Arcus, ArcusForPlot, ArcusForSIXTE, align_requirement_smith"]}
{"id": "C144", "title": "What is drawn in three dimensions is where it is", "statement": "For surfaces drawn with X3D, every vertex is the point of the surface for its two coordinates, in meters and rounded to the configured number of digits; the faces join neighbouring points of the grid and no other vertices exist. All vertices of a Rowland torus are on the torus and every point of the torus is close to a drawn face; all vertices of a cylinder are on the part of the mantle that rays can hit and each point that a ray hits lies behind a drawn face, up to the distance between a chord and its arc. Drawing adds one shape with the color and transparency asked for to the scene and hands the scene back. With Mayavi the points are exact, and a tube has the ends and the radius of the element.", "quantifier": "all surfaces, grids, placements, limits of the angle, rays, precisions, scenes", "why_tests_cant": "Whether something looks right is tested by eye for a few instruments; that no part of a curved surface is missing or at a wrong place depends on all angles, limits and placements.", "anchors": ["marxs/visualization/x3d.py: surface, box, triangulation, indexed_triangle_set, plot_object, _format_points, empty_scene", "marxs/visualization/mayavi.py: surface, cylinder", "marxs/design/rowland.py: RowlandTorus.parametric_surface", "marxs/math/geometry.py: Cylinder.parametric_surface"]}
{"id": "C145", "title": "Photons do not influence each other", "statement": "In a sequence of elements, stacks, filters, baffles and support structures which each look at photons one by one, the result for a photon does not depend on the other photons in the list: processed alone, in batches, in another order or among other photons, it ends with the same values in all columns. Columns that exist only because another photon hit an element hold the value for 'not seen' (-1 for ids, NaN else). If the whole list can be processed, so can every single photon.", "quantifier": "all sequences of steps of any length, all lists of photons of any length, all positions of a photon in the list", "why_tests_cant": "Tests run one list of photons; that boolean masks, ranks of hits, added columns and defaults work together so that no photon gets the values of its neighbour must hold for every pattern of hits.", "anchors": ["marxs/optics/base.py: OpticalElement.process_photons, FlatStack.process_photons", "marxs/simulator/simulator.py: BaseContainer.__call__", "marxs/optics/baffles.py: Baffle.process_photons", "marxs/missions/mitsnl/catgrating.py: catsupportbars", "marxs/missions/athena/spo.py: spomounting", "marxs/missions/arcus/boom.py: Rod.process_photons", "marxs/optics/detector.py: FlatDetector, CircularDetector"]}
{"id": "C146", "title": "Gratings on a Rowland torus bring each order to one focus", "statement": "For an array of gratings placed on a Rowland torus by normal_spec = focal point and a parallel_spec in the meridian plane, with one orientation (blaze) for all gratings: all photons that fly to the focal point and are diffracted at the centre of a grating into the same order at the same energy go to the same point of the Rowland circle, in the meridian plane of their grating, independent of which grating they meet. The distance of this point from the focal point is the chord that belongs to the angle of diffraction; the point lies ahead of the photon. In particular this holds for the torus of design_tilted_torus with the settings of the missions and all gratings in the plane z = 0.", "quantifier": "all tori in any place, all lists of grating positions on the outside of the torus axis, all sizes, blaze angles below 90 degrees, orders, energies, grating constants, order selectors, both sign conventions, directions of any length", "why_tests_cant": "Tests place a handful of gratings and compare widths with a tolerance; that the geometry focuses exactly, for any number of gratings anywhere on the torus, and that placement, orientation by elem_args and diffraction fit together without a sign error needs a proof", "anchors": ["marxs/missions/lynx/lynx.py:LynxGAS", "marxs/missions/lynx/lynx.py:add_rowland_to_conf", "marxs/simulator/simulator.py:ParallelCalculated", "marxs/simulator/simulator.py:Parallel.generate_elements", "marxs/design/rowland.py:design_tilted_torus", "marxs/optics/grating.py:FlatGrating.diffract_photons"]}
{"id": "C147", "title": "A lens and a detector make an image of the sky", "statement": "For a telescope with a fixed pointing, a PerfectLens on the optical axis and a FlatDetector in its focal plane: a photon from any position on the sky in front of the telescope is detected at the place of this position in the tangent plane (offsets East and North, turned by the roll angle, scaled by the focal length, point-inverted), up to a blur of at most (1/cos(off-axis angle) - 1) times the half size of the lens; photons from the target itself arrive exactly in the center of the detector for every roll; every photon that hits the lens is detected if the image with its blur fits on the detector; pixel numbers belong to the place.", "quantifier": "all pointings and rolls, all sky positions in front of the telescope, all focal lengths, sizes of lens and detector, pixel sizes, entry points, energies and reflectivities", "why_tests_cant": "Tests simulate single stars near the axis with a tolerance; the orientation (East, North, roll) and the size of the blur for every source and every entry point need a proof", "anchors": ["marxs/source/pointing.py:FixedPointing.photons_dir", "marxs/optics/mirror.py:PerfectLens.specific_process_photons", "marxs/optics/detector.py:FlatDetector.specific_process_photons", "marxs/math/geometry.py:FinitePlane.intersect", "marxs/simulator/simulator.py:BaseContainer.__call__"]}
{"id": "C148", "title": "Overview plots of tolerancing simulations show each run where it belongs", "statement": "load_and_plot draws one panel for each parameter in the list: for each wavelength one pair of lines (resolving power, effective area) made of exactly the runs in which only this parameter is changed, ordered by its value, with rotations in degrees and matching labels; of a list with more than six parameters it plots six; the background has the color the caller asks for, or else the one that belongs to the file name.", "quantifier": "all tables of results, file names, lists of parameters and keyword arguments", "why_tests_cant": "There are no tests of the plots; which runs end up in which line depends on all rows of the table, and that no keyword can set the background is a statement about all keywords", "anchors": ["marxs/design/tolerancing.py:WigglePlotter.plot_wiggle", "marxs/design/tolerancing.py:WigglePlotter.load_and_plot", "marxs/design/tolerancing.py:DispersedWigglePlotter.plot_one_line", "marxs/design/tolerancing.py:select_1dof_changed"]}
{"id": "C149", "title": "Colors tell diffraction orders apart", "statement": "OrderColor(colormap, max_order) gives every order up to max_order its own style: zeroth order is black and thick, all others have the color of the map at |order|/max_order (the end of the map for max_order), positive orders are dotted and negative ones solid; so two different orders look different if the map has different colors. Orders above max_order are an IndexError, not a color of another order.", "quantifier": "all colormaps, max_order and orders", "why_tests_cant": "Tests could look at a few orders of one map only", "anchors": ["marxs/analysis/plots.py:OrderColor"]}
{"id": "C150", "title": "Apertures are illuminated uniformly and simulated effective areas converge to the true ones", "statement": "With independent uniform random numbers, the probability that a photon enters a RectangleAperture or (sector of a) CircleAperture through any measurable part of its opening is the fraction of the opening covered by this part, and the reported area is the area of the opening; in a MultiAperture the probability to enter through a part of one aperture is the area of this part divided by the area of all openings together. So the effective area computed from a photon list (A_geom / n times the summed probability of an order) converges almost surely, for growing number of photons, to the integral of the mean detection probability over the opening.", "quantifier": "all positions, orientations and sizes of apertures, all measurable parts of the opening, all detection probabilities that depend measurably on entry point and other random numbers", "why_tests_cant": "A test can only draw finitely many photons and compare histograms within errors; the statement is about the distribution and a limit", "anchors": ["marxs/optics/aperture.py:RectangleAperture.generate_local_xy", "marxs/optics/aperture.py:CircleAperture.generate_local_xy", "marxs/optics/aperture.py:RectangleAperture.area", "marxs/optics/aperture.py:CircleAperture.area", "marxs/optics/aperture.py:MultiAperture.__call__", "marxs/analysis/gratings.py:effectivearea_from_photonlist"]}
{"id": "C151", "title": "Extended sources and lab sources shine uniformly", "statement": "The directions of photons from a LabPointSourceCone are uniform in solid angle over the cone: the probability of any measurable set of directions is the fraction of the solid angle of the cone it covers, and the cone has the solid angle 2 pi (1 - cos half_opening). Photons of a DiskSource are uniform over the ring in the plane of offset angles, photons of a SphericalDiskSource are uniform over the ring on the sphere.", "quantifier": "all measurable sets of directions or positions, all cones and rings", "why_tests_cant": "Statement about the distribution for every set of directions; a test compares a few histograms of finite samples", "anchors": ["marxs/source/labSource.py:LabPointSourceCone", "marxs/source/basesources.py:DiskSource", "marxs/source/basesources.py:SphericalDiskSource", "marxs/source/basesources.py:RadialDistributionSource"]}
{"id": "C152", "title": "Random draws from tables follow the tables", "statement": "Values drawn from a tabulated density with RandomArbitraryPdf (energies and polarization angles of sources) have exactly this density, for every set of values. Order selectors (OrderSelector, EfficiencyFile, InterpolateEfficiencyTable) are unbiased: the mean of the probability of photons sent to an order is the tabulated efficiency of this order, although each photon is sent to a single order; so the effective area of an ideal telescope with such a grating converges to geometric area times efficiency.", "quantifier": "all tables, orders, measurable sets of values and apertures", "why_tests_cant": "Statement about distributions and limits; a test sees finite samples", "anchors": ["marxs/math/random.py:RandomArbitraryPdf", "marxs/optics/grating.py:OrderSelector", "marxs/optics/grating.py:EfficiencyFile", "marxs/missions/mitsnl/catgrating.py:InterpolateEfficiencyTable", "marxs/analysis/gratings.py:effectivearea_from_photonlist"]}
{"id": "C153", "title": "Poisson sources: how many photons", "statement": "The arrival times that poisson_process draws form a Poisson process: if waiting times are independent and exponential with the given rate, the number of arrivals in the exposure has the Poisson distribution with mean rate * area * time. The function returns n photons with exactly this probability, for every n.", "quantifier": "every rate, exposure time, probability space with independent exponential waiting times, every number of photons", "why_tests_cant": "A distribution is a statement on all random streams; also whether the loop ends depends on the random numbers, and in tests with fixed seeds a run that never ends is not seen.", "anchors": ["marxs/source/basesources.py:poisson_process"]}
{"id": "C154", "title": "Gaussian scatter, jitter and Gaussian sources have the promised distributions", "statement": "RandomGaussianScatter and JitterPointing (for a source on the optical axis) deflect a photon by an angle whose distribution is the normal distribution with the width given by the user, folded at zero, and no direction around the old direction of the photon is preferred. The fraction of photons of a GaussSource within a radius rho (in the plane of the offsets) is 1 - exp(-rho^2 / (2 sigma^2)); the fraction within the angle rho on the sky is at least that and at most 1 - (cos rho)^(1 / sigma^2), but for the fraction with offsets above 90 degrees, wherever the source is.", "quantifier": "every width, direction, angle, set of directions and rotation about the axis; all random numbers through their distribution", "why_tests_cant": "Distributions cannot be settled with finitely many random numbers; symmetry is a statement on all sets of directions and all rotations.", "anchors": ["marxs/optics/scatter.py:RandomGaussianScatter.specific_process_photons", "marxs/source/pointing.py:JitterPointing.process_photons", "marxs/source/basesources.py:GaussSource.generate_photons"]}
{"id": "C155", "title": "Unpolarized light and mirrors as polarimeters", "statement": "Photons of an unpolarized source have a polarization that is uniform in all transverse directions: for any pair of transverse axes it is distributed like a vector turned by a uniform angle. A FlatBrewsterMirror reflects a fraction of linearly polarized light that is a constant plus a cosine of twice the polarization angle, with the maximum for polarization perpendicular to the plane of incidence; of unpolarized light it reflects the mean of its s and p reflectivities (half of it for the default), and averages over long simulations converge to that. Light reflected once is polarized, and a second mirror reflects the squared cosine of the angle between the planes of incidence (Malus' law).", "quantifier": "every direction, orientation of the mirrors, pair of reflectivities, transverse frame, set of vectors; all random numbers through their distribution; all long simulations (almost surely)", "why_tests_cant": "Distributions, averages and limits cannot be settled with finitely many random numbers; the modulation curve ranges over all angles and orientations.", "anchors": ["marxs/source/basesources.py:Source.generate_polarization", "marxs/math/polarization.py:polarization_vectors", "marxs/optics/multiLayerMirror.py:FlatBrewsterMirror.specific_process_photons"]}
{"id": "C156", "title": "The statistical error of a simulated effective area", "statement": "For a simulation with n photons, the effective area that is computed from the photon list (geometric area divided by n, times the sum of the probabilities in an order) differs from the true one by a fraction e of the geometric area or more with a probability of at most 1 / (4 n e^2). The true effective area is the integral over the opening of the mean detection probability; for a MultiAperture it is the sum of these integrals over all openings. This holds however the shuffle in MultiAperture orders the photons.", "quantifier": "every aperture or list of apertures, detection probability in [0,1] as function of position, aperture and all other random numbers, order, number of photons n, size of the error, result of the shuffle", "why_tests_cant": "A probability over all sequences of random numbers, for every n, e and instrument.", "anchors": ["marxs/optics/aperture.py:MultiAperture.__call__", "marxs/optics/aperture.py:MultiAperture.area", "marxs/optics/aperture.py:RectangleAperture", "marxs/optics/aperture.py:CircleAperture", "marxs/analysis/gratings.py:effectivearea_from_photonlist"]}
{"id": "C157", "title": "Results do not depend on the coordinate system", "statement": "If all elements of an instrument and a photon are moved by the same rotation and translation, the simulation gives the same result: position, direction and polarization of the photon at the end are the moved ones, and probability, diffraction order, blaze angle, the local coordinates on every element, and the decision which elements are hit and which errors are raised are exactly the same. This holds for any sequence of detectors (flat and cylindrical), filters, perfect and thin lenses, gratings (transmission, reflection, CAT), Brewster mirrors, radial mirror scatter and propagation, for the start positions on apertures, and also if directions or polarizations are NaN.", "quantifier": "every rotation and translation, every list of elements with arbitrary (invertible, also sheared) pos4d and parameters, every photon, every value of the random numbers", "why_tests_cant": "There are infinitely many rotations, instruments and photons; tests place elements along the axes.", "anchors": ["marxs/optics/base.py:OpticalElement.process_photons", "marxs/optics/mirror.py:PerfectLens", "marxs/optics/mirror.py:ThinLens", "marxs/optics/grating.py:FlatGrating", "marxs/optics/grating.py:CATGrating", "marxs/optics/scatter.py:RadialMirrorScatter", "marxs/optics/multiLayerMirror.py:FlatBrewsterMirror", "marxs/optics/aperture.py:FlatAperture", "marxs/math/geometry.py:FinitePlane.intersect", "marxs/math/geometry.py:Cylinder.intersect", "marxs/math/polarization.py:parallel_transport", "marxs/simulator/simulator.py:Sequence"]}
{"id": "C158", "title": "Photons stay physical through a whole instrument", "statement": "However many elements a photon passes: afterwards its direction has unit length, its polarization vector has unit length and is perpendicular to the direction, its probability is in [0,1] and not higher than before, and its energy is unchanged (direction, polarization and probability can also be NaN, but never become numbers again). The cosine of the angle between polarization and direction is off by at most 1e-8 for each element that was passed, so errors do not build up faster than that. Starting the photon with another weight changes the final probability by the same factor and nothing else.", "quantifier": "every list of sensible elements (detectors, filters, lenses, gratings, mirrors, scatter, propagators; any placement, parameters and random numbers), of any length, and every physical photon", "why_tests_cant": "An invariant over instruments of any length; tests look at single elements.", "anchors": ["marxs/optics/base.py:OpticalElement.process_photons", "marxs/math/polarization.py:parallel_transport", "marxs/optics/mirror.py", "marxs/optics/grating.py:FlatGrating", "marxs/optics/scatter.py:RadialMirrorScatter", "marxs/optics/multiLayerMirror.py:FlatBrewsterMirror", "marxs/optics/filter.py", "marxs/simulator/simulator.py:Sequence"]}
{"id": "C159", "title": "An instrument of a different size shows the same picture, enlarged", "statement": "Make an instrument c times as large: multiply positions and sizes of all elements, focal lengths, the distance of the lens from the optical axis and the distances of propagators by c, and leave angles, efficiencies and the period of gratings as they are. Then a photon that starts at the corresponding point ends at the corresponding point (all coordinates c times as large), hits the same elements, and has the same direction, polarization, diffraction order, blaze angle and probability; if one simulation fails, the other fails with the same error. In particular, the unit of length does not matter, except for the period of gratings, which has to be in mm.", "quantifier": "every c > 0, every list of elements (any placement, parameters, random numbers) and every photon, NaN included", "why_tests_cant": "The relation is between two runs of the code, for all instruments and photons; a tolerance or a length written into the code as a number breaks it only for some sizes.", "anchors": ["marxs/math/geometry.py:FinitePlane.intersect", "marxs/math/geometry.py:Cylinder.intersect", "marxs/optics/mirror.py", "marxs/optics/grating.py:FlatGrating", "marxs/optics/scatter.py:RadialMirrorScatter", "marxs/optics/multiLayerMirror.py:FlatBrewsterMirror", "marxs/simulator/simulator.py:Propagator"]}
{"id": "C160", "title": "The length of the direction vector of a photon does not matter", "statement": "Multiply the direction of a photon with a positive number. In a sequence of elements without Propagator it hits the same elements in the same places and gets the same position, polarization, order, blaze angle and probability; the final direction differs by a positive factor at most. A Propagator is the exception: the photon moves farther by that factor.", "quantifier": "every positive factor, every list of elements without Propagator and every photon, NaN included", "why_tests_cant": "A relation between two runs of the code for all instruments and photons; tests use normalised directions only.", "anchors": ["marxs/math/geometry.py:FinitePlane.intersect", "marxs/math/geometry.py:Cylinder.intersect", "marxs/math/utils.py:norm_vector", "marxs/optics/mirror.py", "marxs/optics/grating.py:FlatGrating", "marxs/simulator/simulator.py:Propagator"]}
{"id": "C161", "title": "Plots of order sorting show what is written to the files", "statement": "The band drawn for an order is the order-sorting window: at each place of the grid (order times wavelength) the line is the energy of photons seen there in this order and the borders are the borders of the window; for windows narrower than the distance of the orders bands of different orders do not overlap. The plot of the mixture shows for the main order and each neighbour the fraction of photons that falls in the window, between 0 and 1, and their sum, and fits in the axis; made for the bins of an ARF the curve of its order has the same values as the OSIPFAC column that `apply_osip` writes. The summary has one band for each order and the mixture of the middle one. The plot of the summed area shows the sum over all files on a common grid, and does not depend on the order in which the files are found.", "quantifier": "every table of CCD resolution, window type and size, list of offsets and orders, grid and set of files", "why_tests_cant": "The plots are used to check the reduction by eye; a test can at most check that a file is made, agreement with the numbers in the files must hold at every energy for every window.", "anchors": ["marxs/reduction/osip.py:OSIPBase.plot_osip", "marxs/reduction/osip.py:OSIPBase.plot_mixture", "marxs/reduction/osip.py:OSIPBase.plot_summary", "marxs/reduction/osip.py:OSIPBase.plot_summed_arf", "marxs/reduction/osip.py:OSIPBase.osip_factor"]}
{"id": "C162", "title": "Keywords of constructors are used or refused", "statement": "For every class of elements, containers, apertures, sources and grids: an object is made exactly if all keywords without a default are given, no keyword is given that the class (or its shape) does not document, the place is not given in two ways (`pos4d` together with `position`, `orientation` or `zoom`), and `geometry` is a shape. A keyword with a misspelled name is a `ValueError`. Every documented keyword that is given ends up in the object with the value that was given, and what is not given has the default of the class.", "quantifier": "every class, every set of keywords (including any unknown name) with any values, and every choice of shape", "why_tests_cant": "The keywords travel through up to nine cooperating constructors with multiple inheritance, each of which takes some out of a dictionary; whether a keyword is lost, taken twice or rejected depends on the class and on which others are given.", "anchors": ["marxs/base/base.py:MarxsElement.__init__", "marxs/base/base.py:SimulationSequenceElement.__init__", "marxs/optics/base.py:OpticalElement.__init__", "marxs/math/geometry.py:Geometry.__init__", "marxs/simulator/simulator.py:Parallel.__init__", "marxs/simulator/simulator.py:ParallelCalculated.__init__", "marxs/design/rowland.py:ElementsOnTorus.__init__", "marxs/source/source.py:Source.__init__", "marxs/optics/multiLayerMirror.py:FlatBrewsterMirror", "marxs/optics/grating.py:FlatGrating.__init__"]}
{"id": "C163", "title": "A photon list is its photons", "statement": "Sending a photon list through any sequence of elements (flat elements, circular detectors, filters, lenses, gratings, mirrors, scatterers, propagators) gives a list of the same length in which row `i` is what the elements make of photon `i` alone: position, direction, polarization, probability, energy, order and blaze angle, and for an element that is hit, the local coordinates in the columns of that element. Photons that miss an element keep all their values. What happens to a photon does not depend on the other photons or on its place in the list, and a list can be simulated exactly if each of its photons can. So everything that holds for single photons (unit vectors, probabilities that never grow, moving the instrument together with the photons) holds for lists of any length.", "quantifier": "every list of photons, every sequence of elements with any parameters, every outcome of the random numbers, and any names of the columns (as long as the columns of an element are not those of the photon itself)", "why_tests_cant": "The list is processed column by column, with boolean masks, columns that appear only when an element is hit for the first time, values that are broadcast and a loop for elements that work photon by photon; an index that is off for one combination of hits and misses mixes up photons without any error.", "anchors": ["marxs/optics/base.py:OpticalElement.process_photons", "marxs/optics/base.py:_assign_col_value", "marxs/base/base.py:SimulationSequenceElement.add_output_cols", "marxs/simulator/simulator.py:Sequence.process_photons", "marxs/optics/mirror.py:ThinLens.process_photon", "marxs/optics/grating.py:FlatGrating.specific_process_photons", "marxs/optics/filter.py:GlobalEnergyFilter.__call__"]}
{"id": "C164", "title": "A lost photon does not stop the others", "statement": "A photon whose direction became NaN (for example because a grating sent it into an order that does not exist at its wavelength) stays lost: it hits no element, gets no new direction, polarization, order or coordinates. It has no influence on the other photons: whether a list can be sent through a sequence of elements depends only on the photons that still fly.", "quantifier": "every list of photons, every sequence of elements, any number of lost photons", "why_tests_cant": "Evanescent orders are rare and depend on energy, angle and random order; a simulation may run for thousands of photons before one is lost.", "anchors": ["marxs/math/geometry.py:Cylinder.intersect", "marxs/optics/grating.py:FlatGrating.diffract_photons", "marxs/optics/base.py:OpticalElement.process_photons"]}
{"id": "C165", "title": "Saved positions are the paths of the photons", "statement": "With `postprocess_steps=[KeepCol('pos')]` a simulation gives the same photon list (or the same failure) as without, and `format_positions()` returns for each photon the list of its positions after the first, second, ... element, i.e. what is drawn as rays is the path of each photon. Such a path is made of straight lines, each forward along the direction that the photon has at its beginning, and photons turn only at elements that they hit. With `atol` set, steps are left out for all photons together, and only if no photon has moved by more than `atol` since the last step that is kept.", "quantifier": "every list of photons, every sequence of elements (`Propagator` with distances that are not negative for the direction of the lines), every outcome of the random numbers, every tolerance", "why_tests_cant": "Plots of rays are checked by eye, for a few rays; positions are collected column by column and regrouped by photon with stack and swapaxes.", "anchors": ["marxs/simulator/simulator.py:KeepCol.__call__", "marxs/simulator/simulator.py:KeepCol.format_positions", "marxs/simulator/simulator.py:BaseContainer.__call__", "marxs/optics/base.py:OpticalElement.process_photons", "marxs/math/utils.py:h2e"]}
{"id": "C166", "title": "Each photon interacts with one of the elements of a Parallel", "statement": "If the elements of a `Parallel` are flat, lie in one plane and do not overlap (CCDs of a flat camera, facets of a flat grating array), a photon either misses all of them and is not changed at all, or it hits exactly one of them and the result is what this single element does to it, although the elements are applied one after the other and the first one already turns the photon and moves it to the plane. The order in which the elements are listed does not matter. If elements are behind each other, a photon may be changed by several of them, and the order does matter.", "quantifier": "every number of flat elements (gratings, filters, lenses, mirrors, detectors) with every position, size and orientation in a common plane, every photon, every outcome of the random numbers", "why_tests_cant": "The documentation says that it `is not enforced`; tests use a few facets and photons, for which it is obvious which one is hit; photons that have been diffracted by one facet start in the plane of all the others.", "anchors": ["marxs/simulator/simulator.py:Parallel", "marxs/simulator/simulator.py:BaseContainer.__call__", "marxs/optics/base.py:OpticalElement.process_photons", "marxs/math/geometry.py:FinitePlane.intersect"]}
{"id": "C167", "title": "The mirror image of an instrument gives the mirror image of the photons", "statement": "If all elements of an instrument are replaced by their mirror image (`pos4d` multiplied with a matrix that keeps lengths and angles, but exchanges left and right) and the photons, too, the result is the mirror image of the photons: positions and directions are mirrored, probability, energy, order, blaze angle and coordinates on all elements are the same, and the polarization is mirrored (up to the sign of its vector, which is never of any influence). So, handedness is nowhere built into lenses, gratings (including CAT gratings), scattering (left and right exchanged), filters and detectors; instruments with mirrored channels show mirrored spectra. For `FlatBrewsterMirror` it holds for mirrors that reflect only one polarization (the default).", "quantifier": "every sequence of elements, every mirror image (plane of any position and orientation, point inversion, ...), every photon, every outcome of the random numbers", "why_tests_cant": "Tests mirror at most one element in one plane; the effects are hidden in cross products, which change sign.", "anchors": ["marxs/optics/base.py:OpticalElement", "marxs/optics/grating.py:FlatGrating.diffract_photons", "marxs/optics/grating.py:CATGrating", "marxs/optics/mirror.py:PerfectLens", "marxs/optics/scatter.py:RadialMirrorScatter", "marxs/optics/multiLayerMirror.py:FlatBrewsterMirror", "marxs/math/polarization.py:paralleltransport_matrix"]}
{"id": "C168", "title": "A mosaic of facets acts like one large element", "statement": "If a rectangular filter, grating (with constant groove density and blaze), mirror or detector is cut into smaller ones of the same orientation that cover the same area (in any number, of any sizes, listed in any order), photons come out with the same position, direction, polarization, probability, order and blaze angle as from the one large element; only the coordinates within the element differ. The only exception is a photon that hits a seam exactly: it is seen by both tiles, e.g. absorbed twice.", "quantifier": "every rectangle, every way to cut it into tiles, every photon that does not hit a seam exactly, every outcome of the random numbers", "why_tests_cant": "Tests have a fixed number of facets; the photons meet all the facets one after the other, so a photon diffracted by one facet meets the next ones in their own plane.", "anchors": ["marxs/simulator/simulator.py:Parallel", "marxs/simulator/simulator.py:BaseContainer.__call__", "marxs/optics/base.py:OpticalElement.process_photons", "marxs/math/geometry.py:FinitePlane.intersect", "marxs/optics/grating.py:FlatGrating.process_photons"]}
{"id": "C169", "title": "The wavelength of a photon follows from where it is seen", "statement": "Behind a flat grating (transmission or reflection, FlatGrating or CATGrating, any position, size and groove angle, groove density may vary over the grating) a photon that is found on a flat detector with any position and orientation satisfies: order times wavelength = grating constant times the change of the component along the dispersion direction between the incoming direction and the line from the recorded place on the grating to the recorded place on the detector; the component along the bars is the same. Orders that do not propagate are never detected. If photons arrive perpendicular and the detector is parallel to the grating, all of them lie on one line in the dispersion direction, at sine of the diffraction angle = order * wavelength / grating constant, sorted by order times wavelength.", "quantifier": "every grating, every detector, every photon direction, position, energy and order", "why_tests_cant": "A wavelength calibration is tested for a few instruments and wavelengths; data analysis inverts it for every detected photon.", "anchors": ["marxs/optics/grating.py:FlatGrating.process_photons", "marxs/optics/grating.py:CATGrating.order_sign_convention", "marxs/optics/grating.py:FlatGrating.diffract_photons", "marxs/math/geometry.py:FinitePlane.intersect", "marxs/optics/detector.py:FlatDetector", "marxs/simulator/simulator.py:Sequence"]}
{"id": "C170", "title": "Light paths are reversible", "statement": "A photon goes through any number of flat detectors, filters, mirrors and gratings (transmission or reflection, any order, any position and orientation) and is then sent back in the opposite direction through the elements in the opposite order. It hits the same elements at the same places and comes back to the line on which it came, in the opposite direction, whatever its polarization; no element refuses it. This does not hold for CATGrating, where the sign of the order depends on the side from which the photon comes: a photon sent back may not even propagate.", "quantifier": "every list of such elements, every photon that hits all of them and is not diffracted exactly along a surface, every order selection that depends on the energy only", "why_tests_cant": "Reversibility is a symmetry of the physics that no function implements; tests compare single outcomes with numbers from the same formulas.", "anchors": ["marxs/optics/grating.py:FlatGrating.diffract_photons", "marxs/optics/grating.py:CATGrating.order_sign_convention", "marxs/optics/multiLayerMirror.py:FlatBrewsterMirror.specific_process_photons", "marxs/math/geometry.py:FinitePlane.intersect", "marxs/simulator/simulator.py:Sequence"]}
{"id": "C171", "title": "Photons with the same order times wavelength take the same path", "statement": "Photons of different energy that start at the same place in the same direction with the same polarization, and for which the order times the wavelength is the same at every grating (e.g. first order of one photon, second order of a photon with twice the energy), go through every instrument (apertures, filters, lenses, mirrors, scatter, gratings of both kinds, flat and circular detectors) on exactly the same path with the same polarization and are detected at the same place. Only the energy measured by the detector tells them apart: this is why order sorting is needed.", "quantifier": "every list of elements, every pair of photons, all orders and energies, same random numbers for scatter", "why_tests_cant": "Tests never compare photons of different orders; a wrong dependence on the energy (e.g. rounding of orders, use of energy instead of wavelength in one element) would invalidate order sorting.", "anchors": ["marxs/optics/grating.py:FlatGrating.diffract_photons", "marxs/optics/mirror.py:PerfectLens.specific_process_photons", "marxs/optics/scatter.py:RadialMirrorScatter", "marxs/simulator/simulator.py:Sequence"]}
{"id": "C172", "title": "The simulated effective area does not depend on the size or shape of the aperture", "statement": "If the same instrument is simulated with two apertures of different size or shape (rectangle, ring, sector of a ring) in the same place, and photons which pass only one of the two openings are not detected in an order (because they miss the mirror), then the two simulated effective areas in this order converge to the same value with probability one as the number of photons grows: choosing an aperture that is larger than needed costs photons, but does not bias the effective area.", "quantifier": "all pairs of open apertures with common center and directions of the axes, all instruments (any measurable response with detection probability of at most one), all orders, almost all sequences of random numbers", "why_tests_cant": "Statement about a limit over infinitely many random photons for two different apertures; tests compare at most two noisy numbers for one aperture.", "anchors": ["marxs/optics/aperture.py:RectangleAperture.area", "marxs/optics/aperture.py:CircleAperture.area", "marxs/analysis/gratings.py:effectivearea_from_photonlist"]}
{"id": "C173", "title": "Small misalignments have small effects", "statement": "If all elements of an instrument are moved, tilted or stretched by a little (each by its own matrix) and the photon starts at a slightly different place in a slightly different direction, then the photon ends close to where it would end in the perfect instrument, flies in nearly the same direction and is seen by the same elements at nearly the same local coordinates: all differences go to zero with the size of the misalignments. This holds for any number of detectors, filters, perfect and thin lenses, mirrors, scatter, propagators, flat and CAT gratings, as long as the photon does not hit the edge of an element, does not leave a grating along its surface, and does not hit a thin lens in its center.", "quantifier": "every list of flat elements, all families of misalignments that become small (in any sense of the word: any filter), all photons with a path that is not at an edge", "why_tests_cant": "Tolerancing runs evaluate a few discrete misalignments and users interpolate between them; that the response is continuous between those points is a statement about infinitely many instruments.", "anchors": ["marxs/design/tolerancing.py:moveglobal", "marxs/design/tolerancing.py:wiggle", "marxs/math/geometry.py:FinitePlane.intersect", "marxs/optics/grating.py:FlatGrating.diffract_photons", "marxs/optics/mirror.py:PerfectLens", "marxs/optics/mirror.py:ThinLens", "marxs/optics/multiLayerMirror.py:FlatBrewsterMirror", "marxs/optics/scatter.py:RadialMirrorScatter"]}
{"id": "C174", "title": "The response in wavelengths is the response in energies", "statement": "RMF.rmf_angstrom gives the same values as RMF.rmf, with the limits of the wavelength bins, the smaller one first, such that a photon is in a wavelength bin if and only if it is in the energy bin. If the channels have been made from wavelength edges with ebounds_from_edges, the bins are those that the user has asked for: neighbouring edges. RMF.en_mid is the middle of each channel.", "quantifier": "every matrix, every number of channels, every energy", "why_tests_cant": "Depends on the order in which limits are swapped, for all matrices and edges.", "anchors": ["marxs/reduction/ogip.py:RMF.rmf_angstrom", "marxs/reduction/ogip.py:RMF.en_mid", "marxs/reduction/ogip.py:RMF.ebounds_from_edges"]}
{"id": "C175", "title": "The angle between lines and planes", "statement": "angle_line_plane gives, for lines and planes in Pluecker and homogeneous coordinates made from any points, the angle between the line and the normal of the plane (between 0 and pi); it is a right angle exactly if the line is in the plane or never meets it. It can be called for one line or for several lines.", "quantifier": "every line, every plane, every number of lines", "why_tests_cant": "The angle must not depend on the points that were used to define the line and the plane, for all of the infinitely many choices.", "anchors": ["marxs/math/pluecker.py:angle_line_plane", "marxs/math/pluecker.py:dir_point2line", "marxs/math/pluecker.py:point_dir2plane"]}
{"id": "C176", "title": "Results are written under the right order, numbers are read from files without ambiguity", "statement": "csv_per_order writes a table with the wavelength and one column for each order analysed, with different names that tell the order; the number in column order_o is the one calculated for order o. load_number returns a number only if the file has a single row, and then the number in this row with the unit of its column.", "quantifier": "every list of orders, all numbers of energies, all files", "why_tests_cant": "Names are made from numbers in the header; a shift by one between header and column is only seen if all orders are checked.", "anchors": ["marxs/missions/arcus/analyze_grid.py:csv_per_order", "marxs/missions/arcus/analyze_grid.py:orders_from_meta", "marxs/missions/arcus/load_csv.py:load_number", "marxs/missions/lynx/load_csv.py:load_number"]}
{"id": "C177", "title": "The weight of a photon has no influence on its path", "statement": "Photons that start with different probabilities but are otherwise the same take the same path through any sequence of elements, are diffracted into the same order and are seen at the same place; the probability at the end is the probability in the beginning times a throughput that does not depend on it. So photon lists can be weighted before or after the simulation, each photon with its own weight.", "quantifier": "every list of elements, every photon list, every weight for each photon", "why_tests_cant": "A statement about pairs of runs for every instrument and all weights.", "anchors": ["marxs/optics/base.py:OpticalElement.process_photons", "marxs/simulator/simulator.py:Sequence", "marxs/optics/filter.py:EnergyFilter", "marxs/optics/grating.py:FlatGrating", "marxs/optics/mirror.py:PerfectLens"]}
{"id": "C178", "title": "Columns of the user are carried through a simulation", "statement": "A simulation never loses a photon, changes the order of photons or removes a column. Columns that the elements have nothing to do with (e.g. times, coordinates on the sky, or the user's own) are exactly the same for every photon after any sequence of elements, stacks, filters and baffles as before.", "quantifier": "every sequence of elements with any actions, every photon list, all columns that no element names as its own", "why_tests_cant": "Quantifies over all elements a user may write and all columns; tests look at a few columns of a few elements.", "anchors": ["marxs/optics/base.py:OpticalElement.process_photons", "marxs/optics/base.py:FlatStack.process_photons", "marxs/optics/filter.py:GlobalEnergyFilter", "marxs/optics/baffles.py:Baffle.process_photons", "marxs/simulator/simulator.py:Sequence"]}
{"id": "C179", "title": "The size of an element decides who hits it, not what happens", "statement": "An element with a flat surface and the same element with another zoom do exactly the same to a photon that hits both: place, local coordinates, direction, polarization, probability and order, or the exception, are identical. A larger element catches every photon that the smaller one catches; a photon that misses the larger element is changed by neither. Consequently a photon that hits all elements on its way through a sequence ends in the same state if any elements are made larger, and in a photon list such photons have the same properties at the end, whatever else is caught by the larger elements.", "quantifier": "all flat elements of marxs.optics and sequences of any length, all zooms, all photons and photon lists", "why_tests_cant": "The claim compares two instruments for all photons; users enlarge detectors and apertures to avoid losing photons and rely on the result for the others being identical.", "anchors": ["marxs/math/geometry.py: FinitePlane.intersect", "marxs/optics/base.py: OpticalElement.__call__", "marxs/optics/mirror.py: PerfectLens, ThinLens", "marxs/optics/grating.py: FlatGrating", "marxs/optics/multiLayerMirror.py: FlatBrewsterMirror", "marxs/optics/scatter.py: RadialMirrorScatter"]}
{"id": "C180", "title": "Where a global filter is put makes no difference", "statement": "A photon passes a sequence of elements with a GlobalEnergyFilter somewhere in it if and only if it passes the sequence with this filter in front of all other elements, and all its properties at the end are the same; the same holds for all photons of a list. Two global filters have the same effect as one filter with the product of their efficiencies.", "quantifier": "all sequences of elements of any length, all positions of the filter, all efficiency curves, all photons and photon lists", "why_tests_cant": "The claim is an equation between two different instruments for all photons; users put detector efficiencies and contamination layers wherever it is convenient.", "anchors": ["marxs/optics/filter.py: GlobalEnergyFilter", "marxs/optics/base.py: OpticalElement.__call__", "marxs/simulator/simulator.py: Sequence"]}
{"id": "C181", "title": "Where on its ray a photon starts makes no difference", "statement": "Two photons that differ only in where on the same ray they start, that is, one is the other propagated along its direction by any distance, and that both pass by the same elements and then hit the same flat element are identical in all properties after that element, and so is everything that happens later in the sequence. A photon that starts further back still hits every element that it hits otherwise.", "quantifier": "all sequences of elements of any length, all distances, all photons", "why_tests_cant": "The claim compares two photons in all instruments; sources and Propagators put photons at arbitrary places in front of an instrument.", "anchors": ["marxs/math/geometry.py: FinitePlane.intersect", "marxs/simulator/simulator.py: Propagator", "marxs/optics/scatter.py: RadialMirrorScatter.specific_process_photons", "marxs/optics/base.py: OpticalElement.process_photons"]}
{"id": "C182", "title": "Headers of Chandra simulations describe the instrument", "statement": "A simulation with Chandra has mission and telescope in the header of the photon list before its elements are called and gives all other keywords to the elements unchanged. After ACIS the header has the position of the instrument (aimpoint minus offset), the name of the chips and the instrument, whatever these keywords were before, and everything else as the chips left it; an exception in a chip is not hidden. The name of the chips identifies which chips are used, in which order.", "quantifier": "all headers, all aimpoints and offsets, all lists of chips, anything the elements do to the header", "why_tests_cant": "Headers and lists of chips are unbounded; that names are unambiguous is a statement about all pairs of lists.", "anchors": ["marxs/missions/chandra/chandra_global.py: Chandra.process_photons", "marxs/missions/chandra/det_acis.py: ACIS.process_photons, ACIS.__init__"]}
{"id": "C183", "title": "Transparent elements can be inserted without changing what happens behind them", "statement": "A FlatDetector or an EnergyFilter can be inserted in front of any flat element that a photon hits, with any elements in between that the photon passes by: the photon goes through the rest of the instrument exactly as if the inserted element were not there, except that it has the additional local coordinates and, for the filter, a probability that is lower by the transmission of the filter. The record of local coordinates of earlier elements has no influence on anything.", "quantifier": "all sequences of elements of any length, all positions of detectors and filters, all photons", "why_tests_cant": "The claim is an equation between different instruments for all photons; detectors are put in the beam to look at the photons and must not disturb them.", "anchors": ["marxs/optics/detector.py: FlatDetector", "marxs/optics/filter.py: EnergyFilter", "marxs/optics/base.py: OpticalElement.process_photons", "marxs/math/geometry.py: FinitePlane.intersect"]}
{"id": "C184", "title": "Polarization has no influence on the path of a photon", "statement": "Photons that differ only in polarization and probability take the same path through every sequence of elements: same positions, directions, diffraction orders and local coordinates. The sign of the polarization vector has no influence at all: if it is flipped, the final probability is the same and the final polarization vector is the same or flipped. In instruments without multi-layer mirrors, polarization has no influence on the probability either.", "quantifier": "all sequences of elements of any length, all photons and photon lists, all pairs of polarizations", "why_tests_cant": "Equations between runs with different inputs, for all instruments; a test can compare a few pairs only.", "anchors": ["marxs/math/polarization.py: parallel_transport", "marxs/optics/multiLayerMirror.py: FlatBrewsterMirror", "marxs/optics/mirror.py: PerfectLens, ThinLens", "marxs/optics/grating.py: FlatGrating", "marxs/optics/scatter.py: RadialMirrorScatter"]}
{"id": "C185", "title": "Instruments without gratings are achromatic", "statement": "In every sequence of elements without gratings, photons that differ only in energy and probability take the same path and keep the same polarization. If the efficiencies of filters and mirrors do not depend on energy either, the final probabilities are the same, and an error is raised for all energies or for none.", "quantifier": "all sequences of elements without gratings, of any length, all photons and photon lists, all pairs of energies", "why_tests_cant": "An equation between runs with different energies, for all instruments of this class.", "anchors": ["marxs/optics/mirror.py: PerfectLens, ThinLens", "marxs/optics/filter.py: EnergyFilter, GlobalEnergyFilter", "marxs/optics/multiLayerMirror.py: FlatBrewsterMirror", "marxs/optics/scatter.py: RadialMirrorScatter", "marxs/simulator/simulator.py: Sequence, Propagator"]}
{"id": "C186", "title": "Defaults of mission classes do not override the user", "statement": "Classes with defaults for a mission (DefaultSource, DefaultPointing, FocalPlaneDet for Arcus; Aperture, HRMA for Chandra; DetMany) hand every keyword of the user to the base class unchanged, use the default for each keyword that is not given, and add nothing else. Files with defaults are only read if the value is not given, and defaults never conflict with pos4d.", "quantifier": "all sets of keyword arguments with all values, all sets of defaults", "why_tests_cant": "Any combination of keywords may be given; tests use the defaults or single keywords.", "anchors": ["marxs/missions/arcus/defaults.py: DefaultSource, DefaultPointing", "marxs/missions/arcus/arcus.py: FocalPlaneDet, DetMany", "marxs/missions/chandra/hrma_py.py: Aperture, HRMA"]}
{"id": "C187", "title": "Simulations of photon lists do not depend on the place and size of the instrument", "statement": "Take a list of elements (apertures of sensible parameters, filters, lenses, gratings, mirrors, detectors, ...) and a photon list. If the instrument and all photons are moved and turned together, or made larger together by any factor, the simulation of the list succeeds exactly if the original one does, and photon by photon the results correspond to each other: moved or enlarged positions, the same directions (turned), orders, energies and probabilities. Without Propagator elements the length of the direction vectors, which may be different for every photon, also makes no difference for anything but the length of the directions in the result.", "quantifier": "all lists of elements with sensible parameters, all photon lists of any length, all motions, all factors, all lengths of direction vectors", "why_tests_cant": "A test can move one instrument with one photon list; here the claim is for every instrument, list and motion, including which simulations fail.", "anchors": ["marxs/optics/base.py OpticalElement.__call__", "marxs/simulator/simulator.py Sequence.__call__", "marxs/base/base.py"]}
{"id": "C188", "title": "A FlatStack does what its layers do one after the other", "statement": "A photon that hits a FlatStack is found at the place where it crosses the stack, and every layer notes the same coordinates. The result is the same as for a sequence of the layers as separate elements at the same place, as long as the photon keeps a direction that crosses the surface and the first layer does not scatter photons out of the plane of incidence. A filter as last layer multiplies the probability of each photon that hits with its value for the energy of the photon and does nothing else. Photons that miss are not changed. (Two differences are proved: photons lost in a grating are still seen by later layers, but not by later elements; and scattering as first layer uses the place where the photon hits, while a separate element uses the place where the photon comes from.)", "quantifier": "all lists of layers (detectors, filters, lenses, gratings, scatterers), all places, all photons, all random numbers", "why_tests_cant": "Stacks have any number of layers and the equality must hold for every photon and every combination; a test looks at one stack.", "anchors": ["marxs/optics/base.py FlatStack.__init__", "marxs/optics/base.py FlatStack.process_photons", "marxs/missions/chandra/hrma_py.py HRMA", "marxs/missions/lynx/mirror.py MetaShellMirror"]}
{"id": "C189", "title": "Mirror scatter blurs images by no more than the scattering angles", "statement": "A mirror made as a stack of a lens, radial scatter and filters (as in the Chandra HRMA or the Lynx metashells) sends all photons that come from the same direction, hit the mirror and keep a direction past one common point, one focal length behind the lens in the direction of the photons: each photon passes this point at no more than the sum of the sizes of its two scattering angles times the distance from the place where it hit. With scatter switched off all photons go exactly through this point. The scatter changes a direction by a vector of length no more than the sum of the angles times the length of the direction.", "quantifier": "all places and orientations of the mirror, focal lengths, offsets of the optical axis, reflectivities, lists of filters, incoming directions, photons with this direction that hit the stack and keep a direction, all drawn scattering angles", "why_tests_cant": "The bound must hold for all scattering angles and all places on the mirror; a test with random numbers only sees typical angles.", "anchors": ["marxs/missions/chandra/hrma_py.py HRMA.__init__", "marxs/missions/lynx/mirror.py MetaShellMirror.__init__", "marxs/optics/scatter.py RadialMirrorScatter.specific_process_photons", "marxs/optics/mirror.py PerfectLens.specific_process_photons", "marxs/optics/base.py FlatStack.process_photons"]}
{"id": "C190", "title": "Chandra header of tables with LSF parameters", "statement": "Adding the Chandra header to a table with parameters of line spread functions works if and only if the table is for MEG, HEG or LEG and has ORDER, RAND_TG and TG_M, and the events have detector and grating; otherwise there is a KeyError. Only the sixteen keywords of Chandra are written, with the documented values: shells that belong to the grating, the instrument as the part of the detector name before the dash, boxes that repeat the values of the other keywords. Adding it again makes no difference. (Not true, proved: after an exception the table is unchanged; it keeps part of the new header.)", "quantifier": "all headers of tables and events", "why_tests_cant": "The header has to be right for all combinations of keywords, present or missing; tests use one file.", "anchors": ["marxs/reduction/lsfparm.py lsfparmtable_add_Chandra_header"]}
