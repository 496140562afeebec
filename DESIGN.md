# Formal model of Chandra-MARX/marxs in Lean 4 — design

## Approach

`/verif/lean/Verif/` holds

* `Model/*.lean` – executable-style definitions that mirror the Python functions branch by branch.
  Every definition cites file and lines in `/repo`. Simplifications are named in the same comment.
* `Spec/*.lean` – small specifications that do not use the model's helpers.
* `Props/*.lean` – the property theorems (one file per area) and, beside each, an `example`
  showing that its hypotheses are met by a concrete non-trivial case.
* `Lemmas/*.lean` – helper lemmas only.

## Numbers, arrays, randomness, exceptions

* Floating point numbers are modelled as real numbers `ℝ` (exact arithmetic, no overflow, no rounding).
  Where the code relies on NaN ("missed photon", default of a new column) the model uses
  `Option ℝ`, `none` standing for NaN, with comparisons to NaN being false as in IEEE.
* Arrays with a leading photon axis are lists of rows. A vectorised numpy expression is `List.map`.
* Random draws are arguments. A theorem quantifies over all of them.
* Python exceptions are values (`Except`/`Option`).
* In-place mutation becomes a function that returns the new value.
* `np.isclose/allclose` are modelled with their documented tolerance inequality where they decide a branch.

## Plan per property

See the table in `MANIFEST.json` for the exact theorem names. Method in words:

| id | modelled | proof |
|----|----------|-------|
| C01 | `_assign_col_value`, `process_photons`, `Sequence.__call__` on tables with NaN | one-step lemma, induction over the list of elements |
| C02 | the same table model with arbitrary output dictionaries | case analysis per column; induction over dictionary |
| C03 | container trees with hooks and a call trace | mutual induction over trees/lists |
| C04 | `elements_of_class` on rose trees | soundness/completeness by induction; negation witness for `stop_at_first=False` |
| C05 | `first_of_class_top_level` | induction |
| C06 | `generate_elements` as matrix product, 4x4 real matrices | linear algebra; list lemmas for ids and argument splitting |
| C07 | `move_center` | negation witness, partial theorem for commuting moves |
| C08 | `format_positions` loop | loop invariant |
| C09 | `propagate` | algebra |
| C10 | `FinitePlane.intersect` | real algebra (iff) |
| C11 | `Cylinder.intersect` in local coordinates | quadratic formula, case analysis |
| C12, C13 | `angle_between`, `anglediff` with python `%` | floor arithmetic over ℝ |
| C14 | `e2h`, `h2e` on lists | list induction |
| C15 | Plücker functions | polynomial identities |
| C16 | `axangle2mat`, `ex2vec_fix` | polynomial identities with sin²+cos²=1 |
| C17, C18 | polarization module | polynomial identities |
| C19, C20 | `diffract_photons` | algebra with square roots |
| C21 | `PerfectLens`, `ThinLens` | algebra |
| C22 | scatter and jitter | rotation lemmas |
| C23 | Brewster mirror | algebra |
| C24, C25, C26 | cumulative-sum selection | induction over weights |
| C27 | apertures | real inequalities |
| C28 | `FlatDetector` | real inequalities and rounding |
| C29 | `FlatStack` | induction over elements |
| C30, C31, C32 | sources | floor arithmetic, loop invariants, trigonometric monotonicity |
| C33, C34, C35 | analysis sums | induction over lists |
| C36, C37, C38 | RMF encoder and decoders | induction over rows (round-trip) |
| C39, C40, C41 | OSIP | real analysis/algebra |
| C42, C43, C44 | header tables | refinement to a key→value map over write histories |
| C45–C49 | Rowland torus design | polynomial/trigonometric identities |
| C50, C51 | grids | floor/ceil arithmetic |
| C52–C55 | tolerancing histories | induction over histories |
| C56, C57 | helper functions of the analysis | list induction |
| C58–C60 | mission modules | inequalities, integer arithmetic |
| C61–C63 | visualisation helpers | loop invariants, integer arithmetic |
| C64–C68 | sources, local coordinates, placement | algebra |
| C69 | `Baffle`, masks that stop photons | case analysis |
| C70 | local bases on surfaces | algebra |
| C71 | sky polarization | algebra |
| C72 | `FarLabPointSource` | algebra |
| C73 | `resolvingpower_from_photonlist(_robust)` | list induction; `sigma_clipped_stats` is an arbitrary function |
| C74 | `RMF.variable_length_to_fixed_length` | list induction over rows and groups; the claim fails for single groups and for empty rows, both proved |
| C75 | `OSIPBase.osip_tab`, `osip_range` | algebra; false for `FixedFractionOSIP`, proved |
| C76 | `OSIPBase.apply_osip_all` | list membership |
| C77 | `CircularMeshGrid` in `design/rowland.py`: columns of facets in rings | arithmetic on the ring counts; negation with a witness for the uncovered and the overlapping case |
| C78 | `GratingArrayStructure`/`RowlandCircleArray`-like solvers that put elements on the torus (root finder as parameter with the contract `FindsRoots`) | every returned element lies on the torus; no partial result |
| C79 | `run_tolerances_for_energies2`: splitting of the element tree and search of the parts | from C04/C05; negation for `subclass_ok=True` |
| C80 | `run_tolerances_for_energies` with memory of tables and dictionaries | induction on energies on top of C53 |
| C81 | `varyattribute` on an attribute dictionary | induction on keyword arguments |
| C82 | `DisplayDict.getItem`, `get` (Model/Visual) | case analysis on the two lookups |
| C83 | `selectShape`, `plotObjectGeneral`, `getColor` with `to_rgb` as argument | induction over the list of shapes; second run from the changed dictionary |
| C84 | `VObj.plot`, mutual recursion over containers | mutual induction, specification `leaves` |
| C85 | `surfaceFaces` | membership characterised by row and column, injectivity of row-by-row numbering |
| C86 | `rayConnections`, `plotRays` | as C85; grouping by value, counted by induction; values per point: negation proved |
| C87 | `makeGeometry`, the class-level dictionary is state | induction over the list of constructions; negation for other geometries |
| C88 | `halfboxLocal`, `boxFaces`, `boxTriangles` | evaluation of the six settings for arbitrary bounds and placements, complete finite tables |
| C89 | `xyzCircle`, `stripTriangles` | modulo arithmetic; negation for strips with three or more columns |
| C90 | `writeHtmlArchive` with the outcome of each step as argument | case analysis over failure points |
| C91 | `rodProcess`, `boomProcess` (Model/Missions); a rod is the set of rays it blocks | induction over the rods |
| C92 | `l1Photon`, `l1Trans`, `interp1d` | case analysis, bounds of linear interpolation |
| C93 | `writeOrders`, `ordersFromMeta` | loop invariant, pigeonhole bound of the loop, injective keywords; negation for a header with a longer list |
| C94 | `skyOffset`, `fixedDir` (Model/Chandra); `SkyOffsetFrame` of astropy is three rotations | matrix algebra; specification by North and East vectors |
| C95 | `ditherAt`, `pointingAt`, `lissajousPointing`, `ditherPhotons` | Rodrigues formula, `arctan2`/`arccos` round trip; negations for roll dither, reference transform and pattern |
| C96 | `acisPos`, `acisCorners`, `chipCoord`, `acisDetOffset`, `acisChips` | linear algebra, complete table of ten chips; the offset keywords fail (proved) |
| C97 | `acisXY`, `acisDetSky` together with `photonFlight` | trigonometry; negation for general roll |
| C98 | `getSpec`, `calcOne`, `calcLoop`, `calculateElempos` (Model/Calculated) | induction over the list of positions; orthonormality of `ex2vec`; exact condition for refusal; a point turns normals away from it (negation proved) |
| C99 | `torusInward`, `elementsOnTorus` on top of the torus model | C47 for the normal, C98 for the orientation; fails at the top of the tube (proved) |
| C100 | `cylinderFromRowland`, `cylinderR` and the cylinder intersection | algebra of position matrices; composition with C70 and C28 |
| C101 | `projectOnto`, `facetTable` | linear algebra, induction over elements; container position is ignored (negation proved) |
| C102 | `generatePhotons`, `sourceTable` (Model/SkySource) on top of the source model | case distinction over kinds of specification, length invariants |
| C103 | `setPos`, `pointPhotons`, `placeOffsets`, `radialPhotons`, `gaussPhotons`; frames are rotations | vector algebra, C32 for radii; a disk over the whole sky fails (proved) |
| C104 | `symbolF`, `symbolFPhotons` | conversion between angles and vectors; size and frame are wrong (proved) |
| C105 | `addDir`, `fixedProcess`, `jitterProcess` | C71, C94 lifted to tables; inversion of successful runs; jitter ignores the reference transform (proved) |
| C106 | `monoenergeticAstro` | composition of C30, C102, C103, C105 |
| C107 | `Aperture.call`, `multiCall` (Model/Apertures) on the table model of optical elements | masked assignment lemmas of C02; induction over the apertures of a group; steps of a group act on all photons (proved) |
| C108 | `energyFilter`, `ccdRedist`, `globalFilter` | C02 and lemmas on masked multiplication; detector fails for lists with hits and misses (proved) |
| C109 | `marxCall` with an arbitrary function for the C code | sorting and joining by tag, C17 for the polarization; squared probability, other orientations and lost photons are wrong (proved) |
| C110 | `meanWidth2d`, `focusWidth` (Model/Focus): detector at `x` in orientation `o`, intersection with C10's plane | intersection in terms of flight paths; centroid is linear; positivity of the spread if two photons pass the plane in different points |
| C111 | `bentGrating`, `bendStack`, `bendGratings` (Model/Bend) | decomposition of the placement matrix (C06), points of the cylinder; shorter arc and failure for single gratings proved |
| C112 | `ChirpFinder` (Model/Bend): object with the photon it re-uses and a log of all photons sent; the minimizer is an arbitrary decision tree (`Search`) | invariant of the finder over all runs of an arbitrary algorithm; C10 for the hit position |
| C113 | `resolvingPowerPerOrder` (Model/ResPower) with arbitrary gratings, detectors, random numbers and statistics | induction over the orders; equivariance of the statistics; lost photons are filtered out (except for order zero on a user's detector, proved) |
| C114 | `oneOrMoreElements`, `varyPeriod`, `varyOrderSelector`, `regenGratings` (Model/TolGratings) on a memory of objects | induction over the list of references |
| C115 | `wiggleAndBarTilt` (Model/TolGratings) on the container model of C06/C52, `blazeAngle` of C19 | C06 for the positions; plane trigonometry for the blaze angle |
| C116 | `OnCCD.call`, `mkArf` (Model/ArcusArf); geometry of the dispersed ray in Spec/ArcusArf | tangent is increasing between the corner angles; induction over channels |
| C117 | `ogipFilename`, `arcusFilename`, `osipOutName` (Model/OgipFiles) on strings | decimal representation of integers is injective and has no separator characters |
| C118 | `arfWrite`, `rmfInit`, `rmfWrite`, `rmfRead`, `phaiWrite` (Model/OgipHeader); headers are functions from keywords to values | case analysis of the checks; updates of headers |
| C119 | `sherpaFromSpline`, `caldb2sherpa`, `sherpa2caldb`, `fromGaussSigma` (Model/Lsf) on the matrix of C37; the integrated profile and the interpolation are arguments | induction over columns; telescoping sum over the channels; C37 and C38 |
| C120 | `mkCatStack`, `gratCells`, `l1Cells`, `l2DiffCells` on the tables of C29 (Model/CatStack); grating equation, blaze and losses in Spec/CatStack | the stack runs its layers in order (C29); one lemma for layers that treat photons one by one; C19, C20, C22, C58 |
| C121 | `nonParallelCat` (Model/CatStack) | blaze angle of C19 plus the modifier; frame of the element |
| C122 | `boomDefaults`, `setDims`, `threeWindow`, `fourWindow`, `boomPos` (Model/Boom); corners of regular polygons and ends of rods in Spec/Boom | position of each rod in the list by counting; trigonometry of the polygon; ends of the diagonals in terms of the lengths |
| C123 | `rodHit`, `rodCall`, `boomCall` (Model/Boom) with `cylIntersect` and `generateElements`; round rods and the tube actually used in Spec/Boom | inverse of a rotation, zoom and shift; C11 for the tube; induction over rods (C91); placement of elements (C06) |
| C124 | `Facet`, `mechPar`, `windowSpec`, `catWindow`, `catFromMechanical` (Model/MechGratings) on top of `generateElements`; points of a facet, mirror and mean in Spec/MechGratings | decomposition of matrices with orthonormal columns of either handedness; translations of petal and windows cancel; element by element |
| C125 | `CamConf`, `arcusCamConf`, `camTheta`, `camPos`, `detCamera` (Model/ArcusCamera) on top of `calculateElempos`, `generateElements`, `torusNormal`; list of arc positions and matrix of a tangential CCD in Spec/ArcusCamera | angles of the torus reduced to arcs from the lowest point; `normal` on the inner half of the circle; tangents of a circle cut at r tan(delta/2) > w |
| C126 | `SpoRow`, `spoPos4d`, `spoChannelMirror`, `arcusMirror`, `lensInit` (Model/Spo) on top of `generateElements` and `perfectLens`; explicit matrix of an SPO in Spec/Spo | explicit matrices; decomposition of matrices with orthonormal columns; focus from C21 |
| C127 | `maxR`, `minR`, `rmidSpo`, `zoomCover`, `apertureOf`, `arcusAperture` (Model/Spo); points of a rectangle in Spec/ArcusCamera | greatest and least elements of lists; triangle inequality; counterexample with one SPO |
| C128 | `HessRow`, `hessPos`, `hetgD`, `hessGroove`, `hetg`, `flatGrating` (Model/Hetg) on top of `generateElements`, `moveCenter` and `Grating.diffract`; facets as point sets and the dispersion direction in Spec/Hetg | matrices with orthonormal columns are recomposed exactly; sine and cosine of arctan2; grating equation of C19 |
| C129 | `FHdr`, `updateHeader`, `completeCC`, `completeT`, `completeO`, `completeHeader`, `writeEvt` (Model/FitsHeader); header as ordered list of keywords, `Clock` for astropy's time conversions; lists of keywords in Spec/FitsHeader | look-up after an update, case distinction over the places where an exception can be raised |
| C130 | `orderedCols`, `sortColumns`, `moveFirst`, `movePair` (Model/FitsHeader), with an arbitrary permutation for the order of a set; `DirectlyBefore`, `InXYPair` in Spec/FitsHeader | induction over the two loops, then equality of duplicate-free lists up to order |
| C131 | `DictHeap` (dictionaries as cells of a heap), `SetLine`, `runLines`, `GridClass.init`, `lynxGas`, `athenaGas`, `regularGrid` (Model/SharedConf); `Layered`, `observed`, `Covers` in Spec/SharedConf | invariant over the session (cells that exist at the start differ from the start only in keys that are overwritten anyway), induction over the history and the lines of the constructor |
| C132 | `BudgetRow`, `randallUnits`, `reformatBudget`, `alignOp`, `alignOne`, `alignAll`, `alignRow`, `alignTelescope` (Model/Budget) on the tree of elements of Model/Container; `oneSigma`, `PartOf`, `Moves`, `MovesOuter`, `randomShifts`, `RowFits` in Spec/Budget | induction over rows; mutual induction over tree and list of trees for one row, invariant for objects that later rows do not touch |
| C133 | `InterpolateEfficiencyTable` on top of `tablerows_to_2d` (C57) and the choice of order (C25); the degree-1 `RectBivariateSpline` is modelled as linear interpolation in both directions with arguments moved to the edge of the grid | weights that depend only on the grid (`interp_weights`) make every value a convex combination of four entries; sums over orders commute with it; cell formula by induction on the grid |
| C134 | `MetaShellAperture` as a `MultiAperture` of rings (Model/Apertures), `MetaShellEfficiency` as a loop over shells with masked multiplication of the probability | the loop is a map over photons (each photon is in at most one shell); for the telescope combined with C107; negation with a mirror that has a single shell |
| C135 | `zeropos` and `tg_resolve_events_circdet` for one event, `pos4d` of the circular detector | C11 gives points of the detector; inscribed angles by product formulas of sine and cosine; negations for every channel off y = 0 and for a larger Rowland circle |
| C136 | `find_radius_of_photon_shell` with the large flat detector (`planeIntersect` of Model/Geometry), columns that exist before, and `np.percentile` with linear interpolation | percentile between two neighbours of the sorted list, counts by position in the sorted list; scaling of percentiles for the cone |
| C137 | `Baffle.triangulate_inner_outer` as `planeWithHole` of two squares in v_x and v_y; apertures with `rectangleHoleTriangulate`, photons with `planeIntersect` | `C89_frame` says which points are covered by triangles, `C10_plane_intersect` which photons pass; coordinates in the plane are unique |
| C138 | the dictionaries made by `threejsjson` and the javascript that reads them (`MARXSloader.js`, `ModifiedTorusBufferGeometry.js`), with the layout of arrays documented by three.js | round trip: flattening followed by the loader gives points, triangles, colors and placement back; index arithmetic of the torus grid with 16 or 32 bits |
| C139 | `interp_files` with columns of the two files as lists and `np.interp` (`interp` of Model/Analysis); the stack of Brewster mirror and efficiency as product | value at nodes, FWHM of the Gaussian as power of 2, bounds of interpolated values; expansion of the s direction in the frame of the two polarizations |
| C140 | histogram with `np.arange` edges around the mean and `np.histogram` with weights; checks and columns of the empty table (the fit by Sherpa is not modelled) | each value is in exactly one bin (induction over the edges), sums over photons and bins exchanged |
| C141 | detectors (flat and cylindrical) as optical elements with `process_photons`, projections and propagators on photon tables, called one after the other; the lists of detectors of AXIS, Lynx, Athena and Arcus | one step per kind of element, induction over the list; path length to the plane as invariant; for Arcus the z coordinate after the CCDs only decreases |
| C142 | the loop over energy bins with `np.interp` for the width, the integral of the Gaussian as an arbitrary distribution function, and the encoder of C36; the five filter curves with and without a fill value | induction over the table for the interpolation; the decoder of C37 and the tiling of C38; telescoping sum; symmetry of the distribution against convexity of hc/E |
| C143 | telescopes as trees of classes with numbered objects; the search for gratings to chirp is `elements_of_class` of C04, the loop over the budget that of C132; configurations with keys that may be missing | signatures (classes around an object, its class) of all objects are computed for any number of elements, by induction over trees; then the theorems of C04 and C132 |
| C144 | grids of points as two lists of coordinates and a function; geometries with points and indices as X3D gets them; scenes as lists of shapes, results of calls as scene after the call and return value | index arithmetic by induction; a chord of a circle as convex combination; the theorems of C11 on hits of the cylinder and of C45 on points of the torus |
| C145 | the steps of `Model/Table` and support structures as functions of tables; what an element computes per photon is a function of columns named in the spec (random numbers are a column of the photon) | a relation between the list and the table with one photon alone that every operation on tables keeps; induction over steps and layers |
| C146 | placement of a grating array (`calculate_elempos`, `generate_elements` with zoom and blaze orientation) and diffraction by the gratings | axes of the placed gratings in the meridian plane; diffracted direction is a fixed rotation of the direction to the focal point; theorem of the inscribed angle for the circle in the meridian plane; tilted torus as instance |
| C147 | the way of one photon through pointing, lens and detector, composed of the models of C94, C21, C10 and C28 | intersection with upright planes in coordinates; closed form of the place on the detector; bound of the rest term |
| C148 | figures as lists of panels with the numbers handed to matplotlib; grouping and sorting of the table; keywords | permutation and order lemmas for sort and filter; induction over panels; negations for seven parameters and for the background color |
| C149 | the list of colors and the style of an order | index computations; injectivity of |order|/max_order together with the line style |
| C150 | entry point as function of two random numbers; random numbers as Lebesgue measure on the unit square; simulations as sequences of independent random variables | change of variables with constant Jacobian for box and ring; strong law of large numbers; a product measure shows that such sequences exist |
| C151 | direction as function of two random numbers; solid angle as volume of a part of the unit ball | change of variables in three dimensions with constant Jacobian; invariance of volume under rotations; for the sphere source a negation: an open set of draws is displaced inward |
| C152 | bins and selectors as functions of random numbers; density as step function | measures of the intervals from C24 and C25; finite disjoint unions; scaling of Lebesgue measure; strong law from C150 |
| C153 | `poissonTimes` (`Model/Source`) fed with a stream of random numbers on any probability space; Mathlib's exponential and Poisson distributions | induction over the number of waiting times: tail of their sum (Erlang) by convolution; a set of arrivals is an initial segment; bound of the runs that hang by the tail of the first round |
| C154 | `gaussScatter`, `jitter` (`Model/Optics`) with random numbers from a normal distribution and a uniform distribution (`Spec/ScatterLaw`) | angle to the old direction is the drawn angle (C22); a uniform random angle is invariant under shifts (fundamental domains of the line), thus the distribution under rotations; polar coordinates for the profile of Gaussian sources; convexity of `cos √s` and `cos x ≤ exp(-x²/2)` bound the angle on the sky from both sides |
| C155 | `generatePolarization` (`Model/Source`), `polarizationVector` (`Model/MathUtils`), `brewster` (`Model/Optics`) with uniform random numbers (`Spec/Unpolarized`) | two transverse frames differ by a rotation or reflection; uniform numbers are invariant under shifts and reflections modulo 1; reflected fraction as function of the angle between polarization and s direction, its integral over a full turn, strong law of large numbers; direction of the reflected polarization for Malus' law |
| C156 | `apertureIds` (`Model/Random`), `multiArea`, `Aperture.xy` (`Model/Apertures`), `effectiveArea` (`Model/Analysis`); all random numbers of a simulation as a product measure (`Spec/MultiArea`) | the shuffle and pairing of numbers preserve the product measure; the mean over the selection is a sum over apertures weighted with area (C26), uniform illumination (C150); variance of a sum of independent numbers in [0,1] and Chebyshev's inequality |
| C157 | `Optic.step`, `runOptics` (`Model/RayChain`) for one photon, on top of the functions of `Model/Optics`, `Model/Grating`, `Model/Geometry`; `Motion` (`Spec/RigidMotion`) | every function commutes with the motion (rotations keep dot, cross product, length; Rodrigues' formula); well-formed homogeneous coordinates are an invariant; induction over the sequence |
| C158 | `Optic.step`, `runOptics` (`Model/RayChain`); `Ray.Physical`, `Optic.Sensible` (`Spec/Physical`) | invariant, element by element; parallel transport moves the component along the direction without change, or changes nothing if the directions agree within 1e-8; induction over the sequence |
| C159 | `Optic.step`, `runOptics` (`Model/RayChain`); `Optic.enlarged`, `Ray.Similar` (`Spec/Similarity`) | intersection, lens, grating, mirror and scatter formulas are homogeneous in all lengths; one lemma for each element (with the length of the direction as second parameter), induction over the sequence |
| C160 | as C159 | case c = 1 of the same induction, with a factor for the direction; counterpart for `Propagator` |
| C161 | `plotOsip`, `plotMixture`, `plotSummary`, `plotSummedArf` (`Model/OsipPlot`); `SeenAt`, `SameSide`, `OnNearest` (`Spec/OsipPlot`, `Spec/Rmf0`) | algebra of the grid, induction over the loop over offsets with the running sum as accumulator, induction over files; counterexamples for the parts that fail |
| C162 | `construct` runs the constructors in the order given by `Cls.mro` (`Model/Init`); tables of documented and required keywords written from the docstrings, `requested`, `allowedKeys`, `PlaceTwice`, `TakenFrom` (`Spec/Init`) | the program that runs for a class is a finite list of operations on single keywords; lemmas by induction over any such list reduce the claim for all sets of keywords and all values to a property of the list for one keyword, which the kernel evaluates for each class and kind of `geometry` |
| C163 | `runList` runs a sequence on a table with `Elem.call` (`Model/ListChain`); `PhotonsOf t ps`: the rows of the table `t` are the photons `ps` (`Spec/ListChain`); `runOptics` of `Model/RayChain` for one photon | refinement: a simulation relation between rows and photons, kept by each element (what masked and broadcast writes and the loop over photons leave in a given row) and by induction by any sequence; the converse shows that every step on the list succeeds; C157 and C158 are lifted to lists |
| C164 | as for C163 | for instruments without `CircularDetector`: by induction, a photon without direction passes all elements; with one: refuted, from C163 and the check in `Cylinder.intersect` |
| C165 | `runKept` (`Model/KeptPaths`): sequence of `ListOptic` with `keepCol` as hook (`Model/Container`); `Path` (`Spec/KeptPaths`): states of one photon after each element | C163 for each element gives the photons after each step; C03 the snapshots; C10 and C11 that the intersection is forward along the ray; C08 which steps are kept |
| C166 | `runOptics` (`Model/RayChain`): the elements of a `Parallel` one after the other; `SideBySide` (`Spec/ParallelPlane`): rectangles in one plane without common points | C10 (hit point in the rectangle and on the ray); a ray that is not parallel to a plane meets it once, so a photon at the point of its first hit can only hit another element at this same point; induction over the elements; permutations from uniqueness of the element |
| C167 | `runOptics` (`Model/RayChain`); `Reflection` (`Spec/MirrorImage`): orthogonal matrix with determinant -1 and shift; `SameUpToSign`: equal up to the sign of the polarization vector | every mirror image is the inversion at the origin and a rigid motion (C157); inversion: cross products of two vectors do not change, element by element; sign of the polarization: every element is linear or even in it; induction over the elements |
| C168 | `runOptics` (`Model/RayChain`) for the tiles one after the other; `Mosaic`, `OffSeams`, `TileKind` (`Spec/Mosaic`) | C10: a tile is hit iff the full element is hit at a point of this tile; after the hit the photon is in the plane of all tiles and hits no other one (as C166); bases and specular reflection (C23) depend on the orientation only |
| C169 | `Optic.grating`, `Optic.plane`, `runOptics` (`Model/RayChain`); `facePoint`, `orderSide`, `Behind` (`Spec/Spectrograph`) | the grating equation of C19 for the outgoing direction; the line between the two recorded places is this direction (C10); strict monotony of the sine of the arctangent for the order on the detector |
| C170 | `Optic.step`, `runOptics` (`Model/RayChain`); `Through`, `Ray.back`, `Optic.Reversible` (`Spec/Reversal`) | induction on the list of elements: the photon on its way back is on the ray that left the element, hits the same point (C10) and is turned into the opposite of the original direction (C19, C23) |
| C171 | `Optic.step`, `runOptics` (`Model/RayChain`); `SamePath`, `Optic.SameOrderWave` (`Spec/OrderConfusion`) | case by case for each kind of element: energy enters the direction through order times wavelength only; induction on the list |
| C172 | `Aperture.xy`, `Aperture.area`, `effectiveArea` (`Model/Apertures`, `Model/Analysis`); `Aperture.SamePlace`, `Aperture.events` (`Spec/ApertureSize`) | C150 gives both limits as integrals over the openings; the integrands vanish on the symmetric difference |
| C173 | `Optic.step`, `runOptics` (`Model/RayChain`); `RayTends`, `ClearPath`, `misaligned` (`Spec/SmallMoves`) | limits of vectors and matrices coordinate by coordinate (`Lemmas/Tends`); strict inequalities hold near the limit, so that nearby photons take the same branch in every element; induction on the list |
| C174 | `RMF.rmfAngstrom`, `RMF.enMid` (`Model/RmfWave`) | both limits of a bin come from the same channel (`fancyGet_pair`); division of a positive constant reverses the order; sorted lists without repetitions |
| C175 | `angleLinePlane`, `angleShape` (`Model/SmallTools`) | the plane of `point_dir2plane` has the unit normal (C15); Cauchy-Schwarz; cases whether the line is parallel to the plane |
| C176 | `csvPerOrder`, `loadNumber` (`Model/SmallTools`), `writeOrders`, `ordersFromMeta` (`Model/Missions`) | round trip of the header (C93); decimal numbers are unique, so that names of different orders differ |
| C177 | `Optic.step`, `runOptics` (`Model/RayChain`), `runList` (`Model/ListChain`); `Ray.weigh` (`Spec/Weights`) | each element multiplies the probability and uses it nowhere else: case by case, then induction on the list; photon lists with C163 |
| C178 | `runSequence` (`Model/Table`), `runList` (`Model/ListChain`); `Step.Leaves`, `Carries` (`Spec/Columns`) | masked writes keep all other columns (`Upd`, `Lemmas/TableOps`); cases over the kinds of steps, induction on the sequence |
| C179 | `Model/RayChain`, `Model/ListChain`; `Spec/ElementSize` has the same element with another `zoom` | columns of `pos4d` are scaled, unit vectors are not; case split over elements, induction over the sequence; lists via C163 |
| C180 | `Model/RayChain`, `Model/ListChain` | no element changes the energy; weights factor out of a sequence (C177); lists via C163 |
| C181 | `Model/RayChain`; `Spec/StartPlace` | the intersection point does not depend on the start; only scattering perpendicular to the plane of incidence uses the old position |
| C182 | `Model/ChandraMeta`, `Model/FitsHeader` | lookups in a dictionary after assignments; one character per chip number, induction over the list |
| C183 | `Model/RayChain`; `Spec/Transparent` | the photon behind the transparent element is the same ray (C181) with another weight (C177) and record |
| C184 | `Model/RayChain`, `Model/ListChain`; `Spec/PolPath` | case by case: directions are calculated without the polarization; parallel transport is linear and the mirror uses squares, so a sign is kept or lost; induction on the list of elements, C163 for lists |
| C185 | `Model/RayChain`, `Model/ListChain`; `Spec/Achromatic` | case by case: energy is used for efficiencies and the grating equation only; induction on the list of elements, C163 for lists |
| C186 | `Model/Defaults`; `Spec/Defaults` | induction on the list of defaults; lookup after an assignment |
| C187 | `Model/ListChain` (elements with columns and random numbers for each photon, acting on tables), `Spec/ListMove` | photon by photon with C163 from C157, C159, C160; sensible parameters stay sensible when moved or enlarged, so that C163_runs applies to both instruments |
| C188 | `Model/FlatStack` next to `Model/RayChain` | induction over the layers: a photon in the plane with a direction that is not parallel to it hits an element in this plane at distance 0 with the same coordinates; negations with a grating of a period that is too small and a rotation by 180 degrees |
| C189 | `Model/FlatStack` with the stack of `HRMA` and `MetaShellMirror` | a rotation by t changes a vector by at most |t| times its length (from cos t >= 1 - t^2/2), triangle inequality for the two rotations, focal point from the definition of the lens in terms of centre and axis of the element |
| C190 | `Model/ChandraHeader` | case distinction over the keywords that are read; negation with a table for an unknown grating |

## Trusted base

* Lean 4.33.0 kernel and Mathlib as installed.
* Axioms: at most `propext`, `Classical.choice`, `Quot.sound`. No axioms of our own, no `sorry`,
  no `native_decide`, no `bv_decide`.
* The reading of the Python source that is recorded in the citations of each definition.
* numpy/astropy/scipy/transforms3d primitives behave as documented (each is named at the definition that uses it).

## What is modelled

| Lean module | Python code |
|---|---|
| `Model/Vec`, `Model/MathUtils` | `math/utils.py`, `math/rotations.py`, vector algebra of numpy |
| `Model/Table`, `Model/Container` | `optics/base.py` (how elements change photon lists), `simulator/simulator.py` |
| `Model/Geometry` | `math/geometry.py` (planes, holes, cylinders), `math/pluecker.py` |
| `Model/Placement` | `optics/base.py` placement, `Parallel` in `simulator/simulator.py` |
| `Model/Grating`, `Model/Optics`, `Model/Random` | `optics/grating.py`, `optics/mirror.py`, `optics/scatter.py`, `optics/filter.py`, `optics/multiLayerMirror.py`, `optics/aperture.py`, `optics/detector.py`, `optics/baffles.py`, `math/random.py`, `math/polarization.py` |
| `Model/Source` | `source/basesources.py`, `source/pointing.py`, `source/labSource.py` |
| `Model/Base` | `base/base.py`, `utils.py`, header functions |
| `Model/Rowland` | `design/rowland.py` |
| `Model/Tolerancing` | `design/tolerancing.py`, `design/uncertainties.py` |
| `Model/Analysis` | `analysis/*.py` |
| `Model/Ogip`, `Model/Osip` | `reduction/ogip.py`, `reduction/osip.py` |
| `Model/Visual` | `visualization/utils.py`, index arithmetic in `x3d.py` and `mayavi.py` |
| `Model/Missions`, `Model/Chandra` | `missions/mitsnl`, `missions/arcus`, `missions/athena`, `missions/chandra` (functions named in the files) |
| `Model/Calculated` | `ParallelCalculated`, `ElementsOnTorus`, `Cylinder.from_rowland`, `analysis/coords.py` |
| `Model/SkySource` | `Source.generate_photons`, sky sources, `FixedPointing.process_photons`, `JitterPointing.process_photons`, `analysis/run_helpers.py` |
| `Model/Apertures` | `marxs/optics/aperture.py` photon lists, `EnergyFilter`, `CCDRedistNormal` |
| `Model/Marx` | `MarxMirror.process_photons`; the C library is an arbitrary function |
| `Model/Focus` | `mean_width_2d` and the function minimized by `find_best_detector_position` |
| `Model/Bend` | `marxs/design/bendgratings.py`, `generate_test_photons`; `minimize_scalar` is arbitrary, `RectBivariateSpline` of degree 2 through 3 points is the interpolating parabola |
| `Model/ResPower` | `resolvingpower_per_order`; `sigma_clipped_stats`, gratings and detectors are arbitrary functions |
| `Model/TolGratings` | `oneormoreelements`, `varyperiod`, `varyorderselector`, `marxs/missions/mitsnl/tolerances.py` |
| `Model/ArcusArf` | `OnCCD`, `mkarf` in `marxs/missions/arcus/arfrmf.py` |
| `Model/OgipFiles` | file names: `ogip_filename`, `filename_from_meta`, names in `osip.py` |
| `Model/OgipHeader` | headers in `ARF.write`, `PHAI`, `RMF.__init__`, `RMF.read`, `RMF.write`; FITS files are the pair of tables |
| `Model/Lsf` | `sherpa_from_spline`, `caldb2sherpa`, `flatten_sherpa_model`, `sherpa2caldb`, `RMF.from_Gauss_sigma`; Sherpa components are their parameters |
| `Model/CatStack` | `CATL1L2Stack`, `NonParallelCATGrating`, `L1`, `L2Abs`, `L2Diffraction` of `marxs/missions/mitsnl/catgrating.py` as layers on photon tables |
| `Model/Boom` | `Rod`, `ThreeSidedBoom`, `FourSidedBoom` of `marxs/missions/arcus/boom.py` |
| `Model/MechGratings` | `CATfromMechanical`, `CATWindow` of `marxs/missions/arcus/ralfgrating.py` |
| `Model/ArcusCamera` | `DetCamera` of `marxs/missions/arcus/arcus.py` |
| `Model/Spo` | `spogeom2pos4d`, `SPOChannelMirror` of `marxs/missions/athena/spo.py`; `marxs/missions/arcus/spo.py`; `Aperture` and mirrors of `SimpleSPOs` in `marxs/missions/arcus/arcus.py`; `PerfectLens.__init__` |
| `Model/Hetg` | `marxs/missions/chandra/hess.py`; `FlatGrating.__init__` in `marxs/optics/grating.py` |
| `Model/FitsHeader` | `complete_CC`, `complete_T`, `complete_O`, `complete_header`, `sort_columns` in `marxs/missions/chandra/fitsheaders.py`; `Chandra.write_evt` |
| `Model/SharedConf` | dictionary updates in `LynxGAS.__init__`, `GAS.__init__` (Athena), `RegularGrid.__init__` (Arcus); `elem_args` in `Parallel.__init__`, `generate_elements` |
| `Model/Budget` | `reformat_randall_errorbudget`, `reformat_errorbudget`, the loops over the alignment budget in `Arcus.__init__`, `Lynx.__init__`, `AXIS.__init__` |
| `Model/EffTable` | `marxs/missions/mitsnl/catgrating.py` `InterpolateEfficiencyTable` (96-144), degree `k=1`; scipy's checks of the grid |
| `Model/MetaShell` | `marxs/missions/lynx/mirror.py` `MetaShellAperture`, `MetaShellEfficiency` |
| `Model/TgResolve` | `marxs/missions/arcus/analyze_grid.py` `zeropos`, `tg_resolve_events_circdet`; circular detector of `marxs/missions/arcus/arcus.py` `PerfectArcus.add_detectors` |
| `Model/ShellRadius` | `marxs/design/rowland.py` `find_radius_of_photon_shell`; `np.percentile` (linear) |
| `Model/BaffleDraw` | `marxs/optics/baffles.py` `Baffle.triangulate_inner_outer` |
| `Model/SceneJson` | `marxs/visualization/threejsjson.py`; `materialdict`, `_format_plot_rays_input` in `marxs/visualization/threejs.py`; `marxs/visualization/threejs_files/*.js` (three.js itself, normals and the json schema are not modelled) |
| `Model/MultiLayer` | `marxs/optics/multiLayerMirror.py` `MultiLayerEfficiency.interp_files`, `MultiLayerMirror` |
| `Model/LsfFit` | `marxs/reduction/lsfparm.py` `fit_LSF` (data, not the fit), `empty_lsfparmtable` (columns, not the header) |
| `Model/DetChain` | `add_detectors` of AXIS, Lynx, Athena and Arcus; `FlatDetector`, `CircularDetector`, `ProjectOntoPlane`, `Propagator` called on tables (CCDs are a list of detectors; for Arcus the camera of `Model/ArcusCamera`) |
| `Model/Rmf0` | `mkrmf0`, `FiltersQE` in `marxs/missions/arcus/arfrmf.py`; `FiltersAndQE` in `marxs/missions/arcus/arcus.py` (numbers without units) |
| `Model/Telescopes` | `PerfectLynx`, `LynxForPlot`, `Lynx` and configurations in `marxs/missions/lynx/lynx.py`; `PerfectAXIS`, `AXISForPlot`, `AXIS` in `marxs/missions/AXIS/AXIS.py`; `PerfectAthecat`, `AthecatForPlot` in `marxs/missions/athena/athecat.py`; `PerfectArcus`, `Arcus`, `ArcusForPlot`, `ArcusForSIXTE`, `Aperture`, `SimpleSPOs`, `CATGratings` in `marxs/missions/arcus/arcus.py` (structure only) |
| `Model/Draw` | `RowlandTorus.parametric_surface`, `Cylinder.parametric_surface`; `_format_points`, `_diffuse_material`, `empty_scene`, `surface`, `box`, `triangulation`, `indexed_triangle_set`, `plot_object` in `marxs/visualization/x3d.py`; `surface`, `cylinder` in `marxs/visualization/mayavi.py` |
| `Model/PhotonSteps` | sequences of `Step`s with `catsupportbars`, `spomounting` and rods (`BaseContainer.__call__`) |
| `Model/GratingArray` | `LynxGAS` (placement only) in `missions/lynx/lynx.py`, `blazemat` |
| `Model/Imaging` | a `Sequence` of `FixedPointing`, aperture, `PerfectLens`, `FlatDetector` for one photon |
| `Model/WigglePlot` | `WigglePlotter.plot_wiggle`, `load_and_plot`, `DispersedWigglePlotter.plot_one_line`, `OrderColor` |
| `Spec/Uniform` | probability measures for `np.random.random`; used with `Model/Apertures`, `Model/Analysis` |
| `Model/RayChain` | `optics/base.py` 17-38, 142-215 for one photon and an element of `optics`; `Propagator`; `Sequence` without pre- and postprocess steps |
| `Model/OsipPlot` | `OSIPBase.plot_osip`, `plot_mixture`, `plot_summary`, `plot_summed_arf`: numbers of the curves that are drawn (colors: C149) |
| `Model/Init` | `__init__` of 54 classes: method resolution order (C3), and for each class the keywords that its constructor takes out of `kwargs`, changes or hands on; values are opaque |
| `Model/ListChain` | the elements of `Model/RayChain` applied to whole photon lists: `process_photons` of `Model/Table` with the calculation of each element for each row, `GlobalEnergyFilter`, `Propagator`, `CircularDetector` with its checks; NaN directions are NaN in all four coordinates (true after a grating; after a lens the last one is 0) |
| `Model/KeptPaths` | `KeepCol.format_positions` with numbers: checks of shapes, `h2e` for positions with NaN, `np.swapaxes`, `np.allclose`; a sequence with a `KeepCol` |
| `Model/RmfWave` | `RMF.en_mid`, `RMF.rmf_angstrom` |
| `Model/SmallTools` | `angle_line_plane`, `csv_per_order`, `load_number` |
| `Model/ChandraMeta` | `Chandra.process_photons`, `ACIS.process_photons` (header keywords) |
| `Model/Defaults` | `marxs/missions/arcus/defaults.py` constructors, `marxs/missions/arcus/arcus.py` `DetMany`, `FocalPlaneDet`, `marxs/missions/chandra/hrma_py.py` constructors: keywords only |
| `Model/FlatStack` | `FlatStack.__init__` and `FlatStack.process_photons` in `marxs/optics/base.py` for one photon, with detectors, filters, lenses, gratings and scatterers as layers |
| `Model/ChandraHeader` | `lsfparmtable_add_Chandra_header` in `marxs/reduction/lsfparm.py`; values in the header are strings |

The exact functions and lines are cited at every definition.

## Not modelled

* Floating-point rounding and overflow; performance; drawing with plotting libraries; FITS file I/O.
* The MARX C code (`optics/marx.py` calls it); optimisers (`minimize_scalar`), splines
  (`RectBivariateSpline`): arbitrary functions in the model.
* Tables of numbers of the missions that are read from files.
* `LissajousDither.write_asol`: cannot run, because `pointing` returns an array without units and `.to(u.deg)` raises an
  `AttributeError` for all inputs.
* Most of `visualization/threejs.py` (text of JavaScript programs), the metaclass `DocMeta` (docstrings), log messages,
  the text of README files (`write_readme`).

## Disagreements between code and documentation

Where the code does not do what its documentation or name promises, the negation is proved for a witness (or for all
inputs), and the property that remains true has the suffix `_partial`.

| Code | Finding | Theorem |
|---|---|---|
| `Container.elements_of_class` | nested matches are missed with `stop_at_first=False` | `C04_all_depths_false` |
| `Parallel.move_center` | moves the elements unless the change commutes with the placement | `C07_move_center_moves_elements` |
| `h2e` | homogeneous points with small `w` are taken as directions | `C14_rounding_window` |
| `RandomArbitraryPdf` | a draw of exactly 0 gives the last value | `C24_draw_zero` |
| `SphericalDiskSource` | photons inside of the inner radius | `C32_spherical_hole_not_empty` |
| `RMF.rmf` | assumes that the first channel is 1, `make_rmf` writes 0 | `C37_rmf_false` |
| `OSIPBase.apply_osip` | stale factors, files that cannot be read | `C40_history_false`, `C40_stale_factor`, `C40_unreadable` |
| `ColOrKeyTable` | constant keyword hides later column | `C42_stale_keyword` |
| `TagVersion` | `ORIGIN`, `CREATOR` ignored | `C44_origin_creator_dropped` |
| `RowlandTorus.xyzw2parametric`, `normal` | wrong at top and bottom of the tube, for `r > 2R`, for unequal zoom | `C46_top_false`, `C46_spindle_false`, `C47_top_false`, `C47_zoom_false` |
| `design_tilted_torus` | center not on the documented line | `C48_center_false` |
| `double_rowland_from_channel_distance`, `add_offset_double_rowland_channels` | channels "3", "4" | `C49_channel3_false` |
| `RectangularGrid` | no element for equal limits | `C50_empty_range_false` |
| `GratingArrayStructure` | overlaps; documentation of `phi` | `C51_overlap_false`, `C51_phi_doc_false` |
| `CircularMeshGrid` | ring not filled, elements on top of each other | `C77_uncovered_false`, `C77_overlap_false` |
| `moveindividual`, `moveelem`, reset | initial misalignment lost, changes discarded | `C52_reset_false`, `C52_moveelem_discards_changes` |
| `L2Abs` | negative probability raises an exception | `C58_l2_rejected` |
| `combine_disjoint_triangulations` | offsets off by one part | `C62_larger_second_false`, `C62_smaller_second_false`, `C62_combined_false` |
| `color_tuple_to_hex` | components of floats mix | `C63_mixing_false` |
| `LabPointSourceCone` | central direction parallel to z | `C68_parallel_z` |
| `resolvingpower_from_photonlist` | 20 photons counted as fewer than 20 | `C73_twenty_photons` |
| `RMF` with fixed-length arrays | single groups cannot be read | `C74_single_group_false` |
| `FixedFractionOSIP.osip_tab` | upper width too large | `C75_fixed_fraction_false` |
| `run_tolerances_for_energies` with `subclass_ok` | nothing is wiggled | `C79_subclass_false` |
| `varyattribute` | half changed object after an error | `C81_half_done` |
| `plot_rays` (X3D) | values per point | `C86_point_values_false`, `C86_point_values_error` |
| `Geometry._geometry` | dictionary shared by all geometries | `C87_other_geometry_false` |
| `triangulate_parametricsurface` | surface not covered | `C89_strip_false` |
| `orders_from_meta` | stale orders | `C93_stale_orders_false` |
| `LissajousDither` | reference transform, dither in roll, orientation of pattern | `C95_reference_false`, `C95_roll_dither_error`, `C95_roll_dither_false`, `C95_pattern_false` |
| `ACIS.__init__` | detector offsets cannot be given | `C96_constructor_error` |
| `ACISChip` sky coordinates | depend on the roll | `C97_sky_false` |
| `ParallelCalculated` | normals point away from the point, not towards it | `C98_towards_false` |
| `ParallelCalculated` | an element at the point itself gets a matrix of NaN | `C98_at_point_nan` |
| `ElementsOnTorus` | orientation at the top of the tube | `C99_top_false` |
| `facet_table` | position of the container ignored; renames the output of the shared plane | `C101_moved_false`, `C101_plane_renamed` |
| `SphericalDiskSource` | radii above 90 degrees fail | `C103_all_sky_false` |
| `SymbolFSource` | `size` is not an angle on the sky; wrong place if the source position is not in ICRS; fails near the pole | `C104_size_false`, `C104_frame_false`, `C104_pole_error` |
| `JitterPointing` | ignores `reference_transform` | `C105_jitter_reference_false` |
| `MultiAperture` | pre- and postprocess steps act on all photons once per aperture, not on those that pass the aperture | `C107_multi_steps_false` |
| `CCDRedistNormal` | fails if some photons hit and others miss | `C108_ccd_miss_false` |
| `MarxMirror` | input probability is counted twice | `C109_probability_false` |
| `MarxMirror` | with any orientation but the default, polarization is transported from local to global coordinates and the caller's list is left in local coordinates | `C109_orientation_false` |
| `MarxMirror` | fails if the C code drops photons | `C109_lost_false` |
| `bend_gratings` | the arc is shorter than the flat grating was | `C111_width_false` |
| `bend_gratings` | fails for single gratings (`elements` is used unconditionally), after the first one has been bent | `C111_single_false` |
| `NumericalChirpFinder` | the specified energy is never used; all photons have 1 keV | `C112_energy_false` |
| `BendNumericalChirpFinder` | always fails, since cylinders have no attribute `phi_limits` | `C112_bent_false` |
| `chirp_gratings` | fails for any number of positions but three | `C112_grid_false` |
| `find_best_detector_position` | documented to change `photons`, but it works on a copy | (not stated as theorem) |
| `resolvingpower_per_order` | for a detector given by the user, lost photons (probability 0) count for the position of order zero; on the Rowland circle they do not | `C113_lost_false` |
| `wiggle_and_bar_tilt` | for gratings in the default orientation the rotation is around an axis that does not change the blaze angle | `C115_default_false` |
| `wiggle_and_bar_tilt` | for photons that arrive from the other side, the rotation doubles the effect of the tilt (blaze angles are absolute values) | `C115_other_side_false` |
| `mkarf` | a channel listed twice is counted twice, the header does not show it | `C116_repeated_false` |
| `apply_osip` | orders are put into the header as strings without plus sign, so the files are not found under the name that belongs to the integer orders unless both are negative | `C117_osip_name_false` |
| `PHAI.write`, `PHAI.read` | `format` is passed twice: always a TypeError | `C118_phai_false` |
| `RMF.__init__` | `DETCHANS` of the matrix is set to the number of energy bins instead of channels | `C118_detchans_false` |
| `RMF.from_Gauss_sigma` | a table with energies is always a TypeError (misspelled keyword) | `C119_energy_false` |
| `sherpa2caldb` | rejects the constant that every model made by `caldb2sherpa` contains | `C119_convert_back_false` |
| `NonParallelCATGrating` | the blaze angle changes with local y, so for a groove angle that is not 0 it changes along the bars | `C121_nonparallel_false` |
| `ThreeSidedBoom`, `FourSidedBoom` with `boom_dimensions` | the length of the diagonals is calculated when the class is defined and the angle in the three sided boom is a constant, so with other lengths the diagonals do not end at the corners (in the four sided boom they become NaN if they are shorter than the battens) | `C122_stale_four_false`, `C122_stale_three_false`, `C122_nan` |
| `ThreeSidedBoom.__init__` | unknown names in `boom_dimensions` give an `AttributeError` instead of the `ValueError` in the code, because `self.name` is not set yet | `C122_unknown` |
| `Rod` | the description says that the cylinder axis is the x axis, but `Cylinder` has its axis along z: each rod is an elliptical tube open along its z axis and photons that come along this axis fly right through the rod | `C123_false` |
| `CATfromMechanical` | numbers of gratings count on from the first facet in the window, so they are the numbers in the table only if these are consecutive in each window; otherwise two gratings can have the same number | `C124_numbers_false` |
| `det_kwargs` of Arcus | a comment says that the orientation flips the CCDs so that det_x increases with x; with this orientation det_x decreases with x on every CCD | `C125_detx_false` |
| `DetCamera` | the docstring says that CCDs come in 3-2-3 groups; the gaps make 2-3-3 groups (counted from the center) | `C125_groups_false` |
| `zoom_to_cover_all_spos`, `Aperture` | the width is calculated relative to the middle of the SPOs, but the aperture is placed on the optical axis; if the SPOs are not symmetric to it, the aperture does not cover them | `C127_covers_false` |
| `complete_O` in `marxs/missions/chandra/fitsheaders.py` | makes the list of keywords about the observation but never adds them to the header | `C129_observation_false` |
| `complete_header` in `marxs/missions/chandra/fitsheaders.py` | the default for `content` is a list, which has no method `upper`; for event lists `header.iterkeys()` does not exist in Python 3 | `C129_default_false`, `C129_write_evt_false` |
| `complete_header` in `marxs/missions/chandra/fitsheaders.py` | the default for `hduclass` is a string; the keywords are set to its single letters | `C129_hduclass_false` |
| `sort_columns` in `marxs/missions/chandra/fitsheaders.py` | `return photons(ordered_cols)` calls a table; always a `TypeError` | `C130_false` |
| `sort_columns` in `marxs/missions/chandra/fitsheaders.py` | other pairs of columns are in the (random) order of a set | `C130_repeatable_false` |
| `Lynx.__init__` in `marxs/missions/lynx/lynx.py` | gratings are chirped before the alignment budget is applied; `generate_elements` makes new gratings without chirp | `C132_own` |
| `MetaShellAperture` and `MetaShellEfficiency` in `marxs/missions/lynx/mirror.py` | `MultiAperture.__init__` renumbers the apertures from 0 and overwrites `id_num=shell['Metashell Serial Number']`; efficiencies are assigned to serial numbers from 1, i.e. the first shell is never reduced and all others get the efficiency of the shell before | `C134_telescope`, `C134_telescope_false` |
| `MetaShellEfficiency.__init__` in `marxs/missions/lynx/mirror.py` | `relative_eff[i - 1, :]` uses the serial number as position in the table: wrong efficiencies for other orders of rows, `IndexError` for gaps | `C134_position_false`, `C134_serial_too_large` |
| `tg_resolve_events_circdet` in `marxs/missions/arcus/analyze_grid.py` | `dy = pos_opt_ax[1] - circ_y` although the zeroth order is at `circ_y = -pos_opt_ax[1]`: zeroth order events have `tg_d != 0` | `C135_cross_zero_false` |
| `tg_resolve_events_circdet` in `marxs/missions/arcus/analyze_grid.py` | distance from grating to event is `2 r cos(delta/2)` and not `2 r cos(delta)`: `tg_d` too large | `C135_cross_too_large` |
| `tg_resolve_events_circdet` in `marxs/missions/arcus/analyze_grid.py` | `zeropos` is called without the configuration, i.e. with the default of the module | `C135_other_conf_false` |
| `find_radius_of_photon_shell` in `marxs/design/rowland.py` | photons that are past the plane at `x` get NaN, i.e. all percentiles are NaN; if the photon list has columns `det_x`, `det_y` already, the old position is used silently | `C136_past_false` |
| `Baffle.triangulate_inner_outer` in `marxs/optics/baffles.py` | the corners are made from `v_x`, `v_y`, but photons are stopped in the plane of `v_y`, `v_z`: the drawing is perpendicular to the baffle | `C137_baffle_false` |
| `torus` in `marxs/visualization/threejsjson.py` | the matrix is not transposed (as it is in `box`), so the position is lost; y and z are not exchanged (as in `threejs.py`), so the axis is wrong; the roles of `coo1` and `coo2` are exchanged; only the first two angles of `coo1` count (the default of `RowlandTorus` is a list of 60 angles) and the second is used as the length of the arc | `C138_torus_axis_false`, `C138_torus_place_false`, `C138_torus_range_false` |
| `container` in `marxs/visualization/threejsjson.py` | calls `plot_obj`, which does not exist: `NameError` for each container with elements | `C138_container_false` |
| `write` in `marxs/visualization/threejsjson.py` | with `photons` it calls `photons.meta()` and sets an item of a list by name: `TypeError` | `C138_write_photons_false` |
| `plot_rays` in `marxs/visualization/threejsjson.py` | without rays `reshape((0, -1))` is a `ValueError` | `C138_no_rays_false` |
| `parseBuffer` in `marxs/visualization/threejs_files/MARXSloader.js` | indices of triangles are cut to 16 bits | `C138_mesh_false` |
| `FlatBrewsterMirror` in `marxs/optics/multiLayerMirror.py` with another `fresnel` method | the new polarization is made from the intensities (squares) of the s and p components, not from the amplitudes: a perfect mirror turns the polarization | `C23_fresnel_false` |
| `fit_LSF` in `marxs/reduction/lsfparm.py` | `d_wave` is documented as half-width of the range, but `np.arange(-d_wave, d_wave, wavebin)` leaves out the last edge: the range ends one bin early on the upper side only | `C140_range_false` |
| `fit_LSF` in `marxs/reduction/lsfparm.py` | the center of the range is the plain mean of the wavelengths, so photons with probability 0 change the histogram | `C140_lost_false` |
| `empty_lsfparmtable` in `marxs/reduction/lsfparm.py` | `np.max(np.diff(waves))` is a `ValueError` for one wavelength and negative for decreasing wavelengths | `C140_single_false`, `C140_decreasing_false` |
| `PerfectArcus.add_detectors` in `marxs/missions/arcus/arcus.py` | no `Propagator` between the camera and `FocalPlaneDet`: photons on CCDs between the two channels, which are below the focal plane, have no `detfp_x`, `detfp_y` | `C141_arcus_false`, `C141_arcus_camera_false` |
| `imaging` in `marxs/missions/AXIS/AXIS.py` and `zero` in `marxs/missions/athena/athecat.py` | `detpix_name` and `loc_coos_name` are the same, so that pixel coordinates are overwritten by coordinates in mm | `C141_pixels_false` |
| comment above `mkrmf0` in `marxs/missions/arcus/arfrmf.py` | `RMF.from_Gauss_sigma` makes a Gaussian in wavelength, so it can not give the same matrix as `mkrmf0`, which makes a Gaussian in energy | `C142_symmetric`, `C142_replace_false` |
| `PerfectLynx`, `PerfectAthecat` with `conf_chirp` | the search `elements_of_class(CATGrating, subclass_ok=False)` does not find the gratings, which are of the derived class `NonParallelCATGrating`; no grating is chirped | `C143_lynx_chirp_none`, `C143_lynx_chirp_false`, `C143_athena_chirp_none`, `C143_athena_chirp_false` |
| `AXIS()`, `Lynx(conf_5050)`, `Lynx(conf_chirp)` | there is no `'alignmentbudget'` in these configurations (in Lynx it is added to `conf` after the copies were made), so that a `KeyError` is raised | `C143_axis_false`, `C143_lynx_variants_false` |
| `detcirc` in the missions | gratings are optimized for the circle of the default torus, whatever torus is in the configuration; a budget that moves the grating structure makes new gratings and removes the chirp | `C143_circle_false`, `C143_axis_chirp_lost` |
| `Cylinder.parametric_surface` | limits that wrap around (`phi_lim = [π/2, -π/2]`) are drawn on the side which rays do not hit; equal limits are the full circle for rays, but a line is drawn | `C144_wrapped_false`, `C144_equal_limits_false` |
| `surface`, `box`, `indexed_triangle_set` of the X3D backend | documented to return the scene, but nothing is returned: without a scene passed in the drawing is lost | `C144_scene_false` |
| `cylinder` of the Mayavi backend | the documented display key `tube-sides` is ignored (the code looks for `tube_sides`) | `C144_tube_sides_false` |
| `process_photons` of all elements | which columns a result has depends on the other photons in the list: results of batches have different columns | `C145_columns_false` |
| `spomounting` | `KeyError` if no photon in the list goes through a pore optic; `catsupportbars` has a branch for the same case | `C145_mounting_false` |
| `tolerancing.py:684-687` `load_and_plot` | checks the keyword `axis_facecolor` but sets `axes_facecolor`: the color of the caller is always replaced if the file name has `global` or `individual` in it, and passing `axis_facecolor` is a `TypeError` | `C148_background_false` |
| `tolerancing.py:691-693` `load_and_plot` | docstring: only six of the parameters are plotted; `add_subplot(2, 3, 7)` is a `ValueError`, so no figure is returned | `C148_six_false` |
| `basesources.py:396-427` `SphericalDiskSource` | docstring: full spherical geometry; the radius is used as offset in longitude and latitude, so more than half of the photons of a disk of 90 degrees are within 60 degrees (half of the solid angle) | `C151_spherical_false` |
| `poisson_process`, `basesources.py:69-75` | the loop that draws more numbers asks for `int((T - sum) * rate * 1.1)` of them, which is 0 as soon as less than 1/1.1 photons are missing: then it never ends. For every rate and exposure time this happens with positive probability (more than one half if one photon is expected); the returned numbers are thus not Poisson distributed | `C153_poisson_false`, `C153_one_photon_false`, `C153_hang_bound` |
| `OSIPBase.plot_mixture` / `plot_summary` | with the default offsets -1, 0, 1 and first order as main (or middle) order the offset to the zeroth order gives a scalar 0 and matplotlib raises `ValueError`: `apply_osip_all(orders=[1])` ends with an error after writing the files, before the summed area is plotted | `C161_mixture_false`, `C161_summary_false` |
| `OSIPBase.plot_osip` | for `FixedFractionOSIP` the upper border of the band is too high by twice the energy (same cause as C75: `osip_tab` gives upper limits, not distances) | `C161_band_false` |
| `OSIPBase.plot_summed_arf` | `np.interp` extends the first and last value: a file adds area outside the wavelengths it covers | `C161_sum_false` |
| `ElementsOnTorus` and subclasses | `OpticalElement.__init__` comes after `Parallel.__init__` in the method resolution order and makes a second geometry without the keywords that the first one has taken: `position`, `orientation`, `zoom` and `pos4d` of the grid are accepted and have no effect | `C162_torus_place_false` |
| `ParallelCalculated`, `ElementsOnTorus`, `SphericalDiskSource`, `DiskSource`, `L1`, `CATL1L2Stack` | keywords `elem_pos`, `pos_spec`, `func_par`, `radial_distribution`, `d`, `elements`, `keywords` are accepted and replaced by values of the class, although unknown keywords are refused everywhere else | `C162_ignored_false` |
| `Cylinder.intersect` | the check `np.all(dir[:, 3] == 0)` fails for NaN, and a grating writes NaN in all four coordinates of the direction of an evanescent photon, so a single such photon raises `ValueError` for the whole list at the next `CircularDetector` (or any other element with a cylinder); flat elements just do not hit it | `C164_lost_photon_false` |
| `KeepCol.format_positions` | `np.allclose` adds its relative tolerance of 1e-5 to `atol`: even with `atol=0` positions 0.1 mm apart are taken as identical at 20 m from the origin | `C165_atol_false` |
| `Parallel`: "each photon will only interact with one of them" | true for elements side by side in one plane only; with one element behind another photons interact with both, or with one, depending on the order in the list | `C166_behind_false` |
| `FlatBrewsterMirror` | the new polarization vector is made of the squares of the components of the old one, so their signs are lost: with both `rs` and `rp` different from zero the mirror image of a photon is not reflected to the mirror image of the reflected photon | `C167_mirror_image_false` |
| `FinitePlane.intersect` | borders belong to the element: photons that hit the seam between two tiles interact with both | `C168_seam_false` |
| `CATGrating.order_sign_convention` | the sign of an order depends on the side from which the photon comes, thus paths through CAT gratings are not reversible | `C170_cat_false` |
| `angle_line_plane` for several lines | documented for "Line(s)", but `p_line[:3]` cuts a table of lines after three lines; every call with more than one line raises `ValueError` | `C175_lines_false` |
| `RadialMirrorScatter.specific_process_photons` in `marxs/optics/scatter.py` | the radius that is used as axis for the scattering perpendicular to the plane of incidence is taken from the position of the photon before the element, not from the intersection point; the outcome depends on where the photon comes from on its ray | `C181_scatter_false` |
| `ACIS` in `marxs/missions/chandra/det_acis.py` | chip numbers that are negative are accepted and count from the end; `DETNAM` is then ambiguous | `C182_detnam_false` |
| `HRMA` in `marxs/missions/chandra/hrma_py.py` | position, zoom, elements and keywords given by the user are overwritten without a warning | `C186_hrma_false` |
| `DetMany`, `Det16` in `marxs/missions/arcus/arcus.py` | read `self.elem_class`, `self.elem_args`, `self.d_element` before they exist: always an `AttributeError`; keywords of the user are dropped | `C186_det_many_false`, `C186_det_many_dropped_false` |
| `FlatStack.process_photons` in `marxs/optics/base.py` | photons without direction (lost in a grating) are still processed by all later layers, e.g. a filter reduces their probability, while a sequence of the same elements leaves them alone | `C188_lost_false` |
| `RadialMirrorScatter` in `marxs/optics/scatter.py` | as first layer of a `FlatStack` it scatters in a different direction than as a separate element at the same place | `C188_scatter_false` |
| `lsfparmtable_add_Chandra_header` in `marxs/reduction/lsfparm.py` | an exception for an unknown grating or a missing keyword leaves a table with part of the new header | `C190_exception_false` |
