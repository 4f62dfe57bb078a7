{"id": "C01", "title": "Box.wrap lands in the box and only moves along periodic lattice vectors", "statement": "For every box (2D or 3D, any tilt, any periodicity flags) and every vector v, Box.wrap(v) equals v plus an integer combination of the lattice vectors of the periodic axes, and its fractional coordinate along every periodic axis lies in [0,1). On non-periodic axes the fractional coordinate is unchanged, and a box with no periodic axis returns v unchanged.", "quantifier": "all boxes with non-zero lengths, all tilt factors, all eight periodicity settings, all input vectors (z=0 in 2D)", "why_tests_cant": "the input space is a continuum of boxes and vectors; tests sample a few boxes and points and cannot cover all tilts, images and flag combinations", "anchors": ["freud/box/Box.h: Box::wrap, Box::makeFractional, Box::makeAbsolute", "freud/util/utils.h: modulusPositive"]}
{"id": "C02", "title": "Box.wrap is idempotent and blind to lattice translations", "statement": "Wrapping twice gives the same as wrapping once, and wrapping v plus any integer combination of periodic lattice vectors gives the same result as wrapping v. So any two periodic images of a particle are the same particle after wrapping.", "quantifier": "all boxes, all vectors, all integer image triples on periodic axes", "why_tests_cant": "integer images are unbounded; a test checks a handful of images near the box", "anchors": ["freud/box/Box.h: Box::wrap, Box::unwrap"]}
{"id": "C03", "title": "make_fractional and make_absolute are inverse to each other", "statement": "For every box, make_absolute(make_fractional(v)) = v and make_fractional(make_absolute(f)) = f (in 2D: for vectors with z=0 / fractions with z=0).", "quantifier": "all boxes with non-zero lengths and all vectors", "why_tests_cant": "continuum of boxes and vectors", "anchors": ["freud/box/Box.h: Box::makeAbsolute, Box::makeFractional", "freud/box.py: Box.make_absolute, Box.make_fractional"]}
{"id": "C04", "title": "unwrap(wrap(v), get_images(v)) gives v back", "statement": "A user who stores wrapped positions together with their image flags can reconstruct the original positions: unwrap(wrap(v), get_images(v)) = v, and contains(wrap(v)) is true.", "quantifier": "all fully periodic boxes and all vectors, including vectors exactly on the faces of the box", "why_tests_cant": "the failing points form a set of measure zero (the lower faces of the box and their images), which random tests never hit", "anchors": ["freud/box/Box.h: Box::getImage, Box::unwrap, Box::wrap, Box::contains"]}
{"id": "C05", "title": "Periodic distances are symmetric and translation invariant", "statement": "compute_distances(p, q) equals compute_distances(q, p), does not change when a periodic lattice vector is added to p or to q, and is zero exactly when p and q are periodic images of each other.", "quantifier": "all boxes, all pairs of points, all lattice translations", "why_tests_cant": "continuum of inputs; boundary cases have measure zero", "anchors": ["freud/box/Box.h: Box::computeDistance, Box::computeDistances, Box::computeAllDistances"]}
{"id": "C06", "title": "The wrapped separation is the minimum image whenever a short image exists", "statement": "If some periodic image of a separation vector is shorter than half of every nearest-plane distance of the box, then Box.wrap returns exactly that image, so no shorter image exists. In orthorhombic boxes Box.wrap always returns a shortest image. (In tilted boxes it need not.)", "quantifier": "all boxes, all separation vectors, all integer images", "why_tests_cant": "unbounded set of images and a continuum of boxes", "anchors": ["freud/box/Box.h: Box::wrap, Box::getNearestPlaneDistance"]}
{"id": "C07", "title": "Box to matrix and back is the identity", "statement": "Box.from_matrix(box.to_matrix()) returns a box with the same lengths and tilt factors, for every box with positive lengths; likewise from_box_lengths_and_angles(to_box_lengths_and_angles()) is the identity, and the box volume is the determinant of the matrix.", "quantifier": "all 3D boxes with positive lengths and arbitrary tilts", "why_tests_cant": "continuum of boxes; rounding-tolerant tests only sample it", "anchors": ["freud/box.py: Box.to_matrix, Box.from_matrix, Box.from_box_lengths_and_angles, Box.to_box_lengths_and_angles", "freud/box/Box.h: Box::getVolume"]}
{"id": "C08", "title": "Copying or scaling a Box keeps its periodicity", "statement": "Box.from_box(box), box * s and s * box describe the same kind of box: all attributes that do not depend on the scale, including the three periodic flags, are those of the original box.", "quantifier": "all boxes and all eight periodicity settings", "why_tests_cant": "tests use the default fully periodic box, where the loss of flags is invisible", "anchors": ["freud/box.py: Box.from_box, Box.__mul__, Box.__eq__, Box.to_dict"]}
{"id": "C09", "title": "Array indexing is a bijection between multi-indices and storage", "statement": "For every array shape, the row-major linear index maps valid multi-indices one-to-one onto 0..size-1, the reverse map is its inverse, and the checked accessor accepts exactly the valid indices and raises on any other.", "quantifier": "all shapes (any number of dimensions, any sizes) and all index tuples", "why_tests_cant": "shapes are unbounded; aliasing between two cells only shows for particular index pairs", "anchors": ["freud/util/ManagedArray.h: getIndex, getMultiIndex, operator(), operator[]"]}
{"id": "C10", "title": "Every in-range value lands in exactly the bin that contains it", "statement": "For a regular axis with n bins on [min,max), a value v in [min,max) is put in the bin i with edges[i] <= v < edges[i+1]; a value outside is not counted at all; bin edges are strictly increasing and start at min and end at max; bin centers are midpoints of the edges.", "quantifier": "all n>=1, all min<max, all values", "why_tests_cant": "continuum of values; boundary values have measure zero", "anchors": ["freud/util/Histogram.h: RegularAxis, Axis::bin, getBinEdges, getBinCenters"]}
{"id": "C11", "title": "Multi-dimensional histogram counts are exact", "statement": "After any sequence of samples, the count stored at a multi-dimensional bin equals the number of samples whose every coordinate falls in the corresponding one-dimensional bin; a sample outside the range in any coordinate changes nothing; a sample of the wrong dimension raises.", "quantifier": "all lists of axes, all sequences of samples", "why_tests_cant": "all sequences of samples of unbounded length", "anchors": ["freud/util/Histogram.h: Histogram::operator(), Histogram::bin, Histogram::increment"]}
{"id": "C12", "title": "Accumulated results do not depend on thread scheduling", "statement": "However the runtime splits the index range into blocks, assigns blocks to threads and orders them, the reduced histogram or sum equals the sequential one (in exact arithmetic).", "quantifier": "all partitions of the work, all assignments to threads, all orders, any number of threads including one and zero", "why_tests_cant": "schedules are chosen by the runtime; a test observes only the schedules that happen to occur", "anchors": ["freud/util/utils.h: forLoopWrapper", "freud/util/ThreadStorage.h", "freud/util/Histogram.h: ThreadLocalHistogram, reduceOverThreads, reduceOverThreadsPerBin"]}
{"id": "C13", "title": "Accumulation histories: results depend only on the frames since the last reset", "statement": "For histogram based computes (RDF, BondOrder, PMFT), after any interleaving of compute(reset=True), compute(reset=False) and property reads, the counts returned equal the sum over the frames computed since the last reset; reading a property any number of times neither changes nor double counts anything.", "quantifier": "all histories of compute / reset / read operations", "why_tests_cant": "histories are unbounded and the reduction is lazy, so bugs need a specific interleaving of reads and writes", "anchors": ["freud/locality/BondHistogramCompute.h: reset, accumulateGeneral, reduceAndReturn", "freud/util/Histogram.h: reduceOverThreads"]}
{"id": "C14", "title": "NeighborList construction accepts exactly well-formed bonds", "statement": "NeighborList.from_arrays succeeds exactly when query indices are sorted and all indices are in range, and then stores every bond unchanged with distance equal to the length of its vector.", "quantifier": "all index, vector and weight arrays", "why_tests_cant": "unbounded arrays; one misplaced index anywhere must be caught", "anchors": ["freud/locality/NeighborList.cc: NeighborList::NeighborList", "freud/locality.py: NeighborList.from_arrays"]}
{"id": "C15", "title": "segments, neighbor_counts and find_first_index describe the bonds", "statement": "For every query point i, the bonds whose query index is i are exactly those with bond index in [segments[i], segments[i]+neighbor_counts[i]), and find_first_index(i) is the lowest bond index whose query index is >= i (the number of bonds if there is none).", "quantifier": "all well-formed neighbor lists, all query indices, including query points without bonds", "why_tests_cant": "bisection errors show up only for particular lengths and gaps", "anchors": ["freud/locality/NeighborList.cc: updateSegmentCounts, find_first_index, bisection_search", "freud/locality.py: NeighborList.segments, neighbor_counts"]}
{"id": "C16", "title": "NeighborList.filter and filter_r keep exactly the requested bonds", "statement": "filter(mask) keeps exactly the bonds whose mask entry is True, in their original order, and reports how many were removed; filter_r(r_max, r_min) keeps exactly the bonds with r_min <= distance < r_max; invalid bounds raise and change nothing. (Not checked by the code: the length of the mask.)", "quantifier": "all neighbor lists, all masks with one entry per bond, all bounds", "why_tests_cant": "unbounded lists and masks", "anchors": ["freud/locality/NeighborList.cc: filter, filter_r"]}
{"id": "C17", "title": "NeighborList.all_pairs contains every pair once", "statement": "NeighborList.all_pairs(system, query_points, exclude_ii) lists, sorted by query index then point index, every pair (i,j) exactly once, leaving out exactly the pairs i=j when exclude_ii is set, and stores for each the wrapped separation between the two points. (False of the code: the direction of the stored vector is opposite to the documented one.)", "quantifier": "all numbers of points and query points, both settings of exclude_ii", "why_tests_cant": "the storage offsets are computed per row in parallel; off-by-one errors depend on the ratio of the two sizes", "anchors": ["freud/locality/NeighborList.cc: NeighborList(points, query_points, box, exclude_ii, ...)"]}
{"id": "C18", "title": "Neighbor list queries never see stale caches", "statement": "After any sequence of filter, filter_r, sort and copy operations interleaved with reads of segments and neighbor_counts, every read returns the values of the current bonds, and a copy is independent of its source.", "quantifier": "all histories of mutations and reads", "why_tests_cant": "caches are filled lazily, so staleness needs a particular order of reads and writes", "anchors": ["freud/locality/NeighborList.cc: filter, sort, copy, updateSegmentCounts", "freud/locality/NeighborList.h: m_segments_counts_updated"]}
{"id": "C19", "title": "NeighborList.sort is a deterministic permutation", "statement": "sort(by_distance) only permutes the bonds; afterwards they are ordered by (query index, distance, point index) or (query index, point index, weight, distance); two lists holding the same bonds in any order become equal after sorting in all columns that are compared, and entirely if these determine the bond. (False of the code: the documented order without by_distance, which has the distance before the weight; bonds that differ only in their vectors may come out in either order.)", "quantifier": "all neighbor lists, all initial orders", "why_tests_cant": "all permutations of unbounded lists", "anchors": ["freud/locality/NeighborList.cc: NeighborList::sort", "freud/locality/NeighborBond.h: less_as_tuple, less_as_distance"]}
{"id": "C20", "title": "Building a NeighborList from a query does not depend on scheduling", "statement": "toNeighborList() returns the same bonds in the same order for every assignment of query points to threads and every completion order, with and without sort_by_distance.", "quantifier": "all partitions and thread assignments", "why_tests_cant": "schedules are chosen by the runtime", "anchors": ["freud/locality/NeighborQuery.h: NeighborQueryIterator::toNeighborList"]}
{"id": "C21", "title": "The bounding-volume tree loses no point", "statement": "For every set of points, the tree built over them holds every point exactly once, and a traversal with a query sphere visits every point inside the sphere: the ball query over the tree equals testing all points.", "quantifier": "all finite point sets (including coincident points), all query spheres", "why_tests_cant": "tree shapes depend on the data; tests see few of the partitions and the empty-side special case", "anchors": ["freud/locality/AABBTree.h: AABBTree::buildNode, buildTree, updateSkip", "freud/locality/AABBQuery.cc: AABBQueryBallIterator::next", "freud/locality/AABB.h: overlap"]}
{"id": "C22", "title": "AABBQuery ball query is complete, sound and free of duplicates", "statement": "In a periodic box, for r_max below half of every nearest-plane distance and points inside the box, the ball query around a query point returns exactly the points whose minimum-image distance d satisfies r_min <= d < r_max (without the point itself when exclude_ii is set), each exactly once, with the separation vector pointing from the query point to the neighbor; larger r_max raises.", "quantifier": "all boxes, point sets, query points and radii", "why_tests_cant": "continuum of inputs; missed pairs across a corner of the box need special geometry", "anchors": ["freud/locality/AABBQuery.cc: AABBQueryBallIterator", "freud/locality/NeighborQuery.h: updateImageVectors"]}
{"id": "C23", "title": "Nearest-neighbor queries with AABBQuery return the k nearest", "statement": "A query for num_neighbors=k (optionally within r_max) returns the k nearest periodic neighbors in order of distance, or all that lie within r_max if there are fewer than k, each once.", "quantifier": "all boxes, point sets, k, r_max, r_guess and scale values accepted by the API", "why_tests_cant": "the search radius grows geometrically; whether the last shell is searched depends on the exact ratio of r_guess, scale and r_max", "anchors": ["freud/locality/AABBQuery.cc: AABBQueryIterator::next", "freud/locality/NeighborQuery.h: validateNearestNeighborArgs"]}
{"id": "C24", "title": "Cell shells enumerate every cell exactly once", "statement": "The outward walk over cells used by LinkCell visits, in 2D and 3D, every cell offset of Chebyshev radius 0, 1, 2, ... exactly once and in order of non-decreasing radius.", "quantifier": "all radii, both dimensionalities", "why_tests_cant": "the walk is an unbounded state machine with seven stages; tests see small radii only", "anchors": ["freud/locality/LinkCell.h: IteratorCellShell"]}
{"id": "C25", "title": "LinkCell stores every point in exactly one cell and ball queries equal brute force", "statement": "Iterating over all cells of a LinkCell yields every point exactly once, and its ball query returns exactly the points with r_min <= minimum-image distance < r_max, whatever the cell width.", "quantifier": "all boxes, in-box point sets, cell widths accepted by the constructor, radii", "why_tests_cant": "cell boundaries and wrap-around cases have measure zero", "anchors": ["freud/locality/LinkCell.cc: computeCellList, LinkCellQueryBallIterator::next", "freud/locality/LinkCell.h"]}
{"id": "C26", "title": "LinkCell nearest-neighbor queries return the k nearest", "statement": "A LinkCell query for num_neighbors=k returns the k nearest points by minimum-image distance in non-decreasing order.", "quantifier": "all boxes, point sets, cell widths and k", "why_tests_cant": "whether the search stops too early depends on the aspect ratio of the box", "anchors": ["freud/locality/LinkCell.cc: LinkCellQueryIterator::next"]}
{"id": "C27", "title": "CellQuery ball queries equal brute force", "statement": "A CellQuery ball query returns exactly the periodic neighbors in the given range, and interleaving two queries on the same object does not change what either returns.", "quantifier": "all boxes, in-box points, radii below half the plane distances; all interleavings of two queries", "why_tests_cant": "interleavings and boundary positions are not sampled", "anchors": ["freud/locality/CellQuery.cc", "freud/locality/CellQuery.h", "freud/locality/CellIterator.h"]}
{"id": "C28", "title": "Query arguments are inferred and validated consistently", "statement": "A query with num_neighbors is a nearest query, a query with only r_max is a ball query, an empty one or one with invalid numbers (r_max<=0 or missing, num_neighbors missing, scale<=1, r_max<=r_min) raises; the resolved r_guess never exceeds r_max and a default never silently overrides a user value; non-periodic axes raise.", "quantifier": "all combinations of present/absent arguments and all values", "why_tests_cant": "combinatorial space of optional arguments", "anchors": ["freud/locality/NeighborQuery.h: validateQueryArgs, inferMode, validateBallArgs, validateNearestNeighborArgs, query", "freud/locality.py: _QueryArgs, _make_default_nlist"]}
{"id": "C29", "title": "PeriodicBuffer produces exactly the periodic copies inside the buffered box", "statement": "PeriodicBuffer.compute(images=False) returns each periodic copy of each point that lies in the box enlarged by the buffer, exactly once (with or without the originals); with images=True it returns the requested number of replicas of every point; buffer_ids map each copy to its original point and the copy minus the original is a lattice vector.", "quantifier": "all boxes, points in the box, buffer sizes, both modes", "why_tests_cant": "copies near corners and exact-boundary buffers are not sampled", "anchors": ["freud/locality/PeriodicBuffer.cc: PeriodicBuffer::compute"]}
{"id": "C30", "title": "FilterSANN selects the solid-angle neighbors", "statement": "For every query point, the filtered list holds the m nearest of its unfiltered neighbors, where m is the smallest number >= 3 for which the SANN radius of the m nearest does not exceed the distance of the next; nothing else is added or reordered.", "quantifier": "all neighbor lists", "why_tests_cant": "the stopping index depends on sums over unboundedly many distances", "anchors": ["freud/locality/FilterSANN.cc"]}
{"id": "C31", "title": "FilterRAD keeps exactly the unblocked neighbors", "statement": "In open mode the filtered list holds exactly the neighbors not blocked by any closer neighbor; in closed mode exactly those closer than the first blocked one; so closed is a prefix of the candidates and a subset of open.", "quantifier": "all neighbor lists and radii", "why_tests_cant": "blocking is a relation between all pairs of neighbors", "anchors": ["freud/locality/FilterRAD.cc"]}
{"id": "C32", "title": "Cluster labels are connected components under every interleaving", "statement": "Whatever the interleaving of the threads that merge bonds in the lock-free disjoint set, two points get the same cluster label exactly when they are connected by a chain of bonds; every thread terminates its merge eventually only after its two points are connected.", "quantifier": "all bond lists, all numbers of threads, all interleavings of atomic steps, including failed compare-and-swap", "why_tests_cant": "interleavings are exponentially many and chosen by the hardware", "anchors": ["extern/dset/dset.h: DisjointSets", "freud/cluster/Cluster.cc: Cluster::compute"]}
{"id": "C33", "title": "Cluster numbering is canonical", "statement": "Labels are exactly 0..num_clusters-1, cluster sizes are non-increasing in the label, ties are ordered by the smallest point index in the cluster, and cluster_keys[c] lists the keys of exactly the points of cluster c in increasing point order. Hence the labels are a function of the connected components alone.", "quantifier": "all partitions of all point sets, all key arrays", "why_tests_cant": "ties and orders depend on the input in combinatorial ways", "anchors": ["freud/cluster/Cluster.cc: Cluster::compute, sort_indexes_inverse"]}
{"id": "C34", "title": "ClusterProperties uses each point's own mass", "statement": "For each cluster, sizes, masses, center of mass, inertia tensor and gyration are computed from exactly the points with that label, each weighted with its own mass; sizes sum to the number of points and masses to the total mass.", "quantifier": "all label arrays (in any order), all mass arrays", "why_tests_cant": "tests use equal masses or contiguous clusters, where a wrong pairing of masses and points is invisible", "anchors": ["freud/cluster/ClusterProperties.cc: ClusterProperties::compute"]}
{"id": "C35", "title": "RDF normalization", "statement": "For any frames, the values returned by the RDF equal counts divided by (points x density x shell volume x frames), with the numbers and the box of the last frame; n_r is non-decreasing, and its last value is the mean number of counted neighbors per query point and frame; shell volumes are positive and add up to the volume of the full shell. (False of the code: the mean over frames with different boxes or numbers of points is not what is returned; a mode changed between compute and read is picked up or not depending on earlier reads; n_r leaves out neighbors below r_min.)", "quantifier": "all neighbor lists, bins, radii, numbers of frames", "why_tests_cant": "continuum of inputs; unbounded sequences of frames", "anchors": ["freud/density/RDF.cc: RDF::reduce, RDF::accumulate"]}
{"id": "C36", "title": "CorrelationFunction is the per-bin mean of the products", "statement": "For every bin the returned value is the mean over all bonds (over all accumulated frames) whose distance falls in the bin of conj(value)*query_value, and zero for an empty bin. (False of the code: omitting query_values with more query points than points reads past the end of an array.)", "quantifier": "all neighbor lists, values, histories", "why_tests_cant": "unbounded sequences", "anchors": ["freud/density/CorrelationFunction.cc"]}
{"id": "C37", "title": "SphereVoxelization marks exactly the voxels whose center is covered", "statement": "A voxel is 1 if and only if its center lies within r_max of some point (minimum image).", "quantifier": "all orthorhombic boxes, widths, in-box points and r_max below half the box", "why_tests_cant": "whether a voxel at the rim is visited depends on the fractional part of r_max/voxel size and the position inside the voxel", "anchors": ["freud/density/SphereVoxelization.cc: SphereVoxelization::compute"]}
{"id": "C38", "title": "GaussianDensity adds each point's Gaussian once per voxel in range", "statement": "The density of a voxel is the sum over all points whose minimum-image distance to the voxel center is below r_max of the Gaussian of that distance, each point contributing once.", "quantifier": "all orthorhombic boxes, widths, in-box points and r_max", "why_tests_cant": "double counting needs r_max near half the box and special positions", "anchors": ["freud/density/GaussianDensity.cc: GaussianDensity::compute"]}
{"id": "C39", "title": "LocalDensity counts are bounded and monotone", "statement": "With default queries, each neighbor contributes a number in [0,1] that does not increase with its distance, num_neighbors is between the number of neighbors fully inside and the number of neighbors touching the sphere, and density = num_neighbors / (area or volume of the sphere).", "quantifier": "all neighbor lists, r_max, diameters", "why_tests_cant": "continuum of inputs", "anchors": ["freud/density/LocalDensity.cc", "freud/density.py: LocalDensity"]}
{"id": "C40", "title": "PMFT positional correlation normalization and guards", "statement": "The positional correlation function returned by every PMFT is counts divided by the ideal-gas expectation over all frames (and equivalent orientations for PMFTXYZ); the number of equivalent orientations cannot change between resets, any attempt raises and leaves previous results readable and unchanged.", "quantifier": "all histories of frames, all bin counts", "why_tests_cant": "histories are unbounded", "anchors": ["freud/pmft/PMFT.h: PMFT::reduce", "freud/pmft/PMFTXYZ.cc", "freud/pmft.py"]}
{"id": "C41", "title": "Windowed MSD equals its definition", "statement": "MSD(mode='window') returns for every lag m the average over all start times of the squared displacement over m frames, averaged over particles; the incremental sums and the autocorrelation term combine exactly to that.", "quantifier": "all trajectories of any length and number of particles", "why_tests_cant": "the algorithm is an algebraic rearrangement valid for all lengths; tests compare on a few", "anchors": ["freud/msd.py: MSD.compute, _autocorrelation"]}
{"id": "C42", "title": "MSD accumulation over batches of particles", "statement": "Computing MSD on several batches of particles with reset=False gives the same as computing it on all particles at once; reset=True forgets earlier batches. (False of the code: batches with different numbers of frames are accepted and the next read raises; images given to an object without a box are ignored.)", "quantifier": "all partitions of the particles into batches, all histories", "why_tests_cant": "histories are unbounded", "anchors": ["freud/msd.py: MSD.compute, MSD.msd, MSD.particle_msd"]}
{"id": "C43", "title": "Nematic tensors are symmetric and traceless and the result is order independent", "statement": "Every particle tensor and the nematic tensor are symmetric with zero trace, the nematic tensor is the mean of particle tensors whatever the thread schedule, flipping or rescaling any orientation changes nothing.", "quantifier": "all non-zero orientation arrays, all schedules", "why_tests_cant": "continuum of inputs and schedules", "anchors": ["freud/order/Nematic.cc: Nematic::compute"]}
{"id": "C44", "title": "SolidLiquid clusters exactly the solid-like bonds", "statement": "num_connections counts, for every particle, its bonds above q_threshold; the final clusters are the connected components of the bonds that are above q_threshold and join two particles with at least solid_threshold connections.", "quantifier": "all neighbor lists, all bond order products, all thresholds", "why_tests_cant": "two filtering passes with caches in between", "anchors": ["freud/order/SolidLiquid.cc: SolidLiquid::compute"]}
{"id": "C45", "title": "RotationalAutocorrelation of unrotated particles is 1", "statement": "If every orientation equals its (unit) reference orientation, every particle order and the system order are exactly 1, for every allowed l.", "quantifier": "all allowed orders l (even, non-negative), all unit quaternions", "why_tests_cant": "overflow depends on l; tests use small l", "anchors": ["freud/order/RotationalAutocorrelation.cc: compute, hypersphere_harmonic", "freud/order/RotationalAutocorrelation.h: constructor"]}
{"id": "C46", "title": "Angular separation respects particle symmetry", "statement": "If equiv_orientations is the full symmetry group of the particle, the reported angle does not change when an orientation is replaced by an equivalent one, is between 0 and pi when the group contains q and -q, and is zero for equivalent orientations.", "quantifier": "all unit quaternions and all finite symmetry groups", "why_tests_cant": "continuum of orientations and all groups", "anchors": ["freud/environment/AngularSeparation.cc: computeMinSeparationAngle, computeSeparationAngle"]}
{"id": "C47", "title": "AngularSeparationNeighbor pairs each bond's own orientations", "statement": "For every bond between query point i and point j the reported angle is the one between query_orientations[i] and orientations[j], for every bond of the list and every schedule.", "quantifier": "all systems including those with different numbers of points and query points", "why_tests_cant": "tests use identical point and query sets, where a swap is invisible", "anchors": ["freud/environment/AngularSeparation.cc: AngularSeparationNeighbor::compute", "freud/environment.py: AngularSeparationNeighbor.compute"]}
{"id": "C48", "title": "Environment matching returns a one-to-one matching within the threshold", "statement": "When two environments are reported similar, the returned index map is a bijection between their vectors and every matched pair is closer than the threshold; environments of different size never match; if a one-to-one matching within the threshold exists it is found.", "quantifier": "all environments, thresholds", "why_tests_cant": "greedy matching fails only on special configurations", "anchors": ["freud/environment/MatchEnv.cc: isSimilar", "freud/util/BiMap.h"]}
{"id": "C49", "title": "EnvironmentCluster results depend only on the last compute", "statement": "After compute(), point_environments has one entry per point of the last system, with the environment of that point only, and cluster labels 0..num_clusters-1, whatever was computed before with the same object.", "quantifier": "all histories of compute calls", "why_tests_cant": "tests create a fresh object per check", "anchors": ["freud/environment/MatchEnv.cc: EnvironmentCluster::compute, populateEnv, EnvironmentMotifMatch::compute", "freud/environment/MatchEnv.h: m_point_environments"]}
{"id": "C50", "title": "The environment disjoint set maintains the partition", "statement": "Merging environments by rank keeps a forest whose find terminates, and two particles are in the same environment cluster exactly when they are connected by a chain of merged pairs.", "quantifier": "all sequences of merges", "why_tests_cant": "unbounded histories", "anchors": ["freud/environment/MatchEnv.cc: EnvDisjointSet::merge, find, findSet"]}
{"id": "C51", "title": "BiMap is a bijection under all operations", "statement": "After any sequence of emplace and clear operations on a BiMap no left value and no right value occurs twice, an emplace that would break this is refused and changes nothing, and lookups in both directions agree. (False of the code: indexing with an absent key and assignment through an index do not keep this.)", "quantifier": "all operation histories", "why_tests_cant": "unbounded histories", "anchors": ["freud/util/BiMap.h: BiMap::emplace, asMap, operator[]"]}
{"id": "C52", "title": "Registration tries every ordered triple and returns a bijection", "statement": "The brute-force registration enumerates every combination of k points exactly once, and the point matching it returns is always a bijection. (The matching does not always minimise the distance; with no points the code reads rows that do not exist.)", "quantifier": "all positive numbers of points", "why_tests_cant": "combinatorial enumeration of unbounded size", "anchors": ["freud/environment/Registration.h: NextCombination, AlignedRMSDTree, Fit"]}
{"id": "C53", "title": "Quaternion rotations are proper rotations and agree with rotation matrices", "statement": "For unit quaternions, rotate preserves dot products, is undone by the conjugate, composes by quaternion multiplication, and equals multiplication with the rotation matrix built from the quaternion, whose transpose is its inverse and whose determinant is 1.", "quantifier": "all unit quaternions and vectors", "why_tests_cant": "continuum of inputs", "anchors": ["freud/util/VectorMath.h: quat, rotate, conj, rotmat3, transpose"]}
{"id": "C54", "title": "Debye structure factor at k=0 and its averaging", "statement": "S(0) equals the number of particles for every frame, and after any number of accumulated frames S(k) is the mean of the single-frame values; k values are evenly spaced from k_min to k_max inclusive. min_valid_k is the smallest of 4 pi / L over the accumulated frames, L the shortest side of the box. (False of the code: one k value is accepted but gives infinite bounds; with accumulated frames of different boxes min_valid_k is below the valid k of all but the largest.)", "quantifier": "all systems, all numbers of frames, all num_k_values from 2 on", "why_tests_cant": "continuum of systems, unbounded histories", "anchors": ["freud/diffraction/StaticStructureFactorDebye.cc", "freud/diffraction/StaticStructureFactorDebye.h"]}
{"id": "C55", "title": "Direct structure factor is non-negative and averages k-points per bin", "statement": "For a one-component system every S(k) value is non-negative, S(k)=N at k=0, and after any frames every bin holds the mean over all sampled k-vectors (over all frames) in that bin.", "quantifier": "all point sets, all k-vector samples, all histories", "why_tests_cant": "continuum of systems", "anchors": ["freud/diffraction/StaticStructureFactorDirect.cc: accumulate, reduce, compute_F_k, compute_S_k"]}
{"id": "C56", "title": "Computed properties are unavailable before a successful compute", "statement": "For every compute object whose compute is guarded as a whole, reading a computed property before the first successful compute raises AttributeError; after a successful compute it never does; a failed compute does not make properties available. (False of the code: MSD sets its flag before it checks its arguments, so after a first call that raises, reading msd raises ValueError.)", "quantifier": "all histories of successful and failing computes and reads", "why_tests_cant": "all histories", "anchors": ["freud/util.py: _Compute", "freud/msd.py: MSD.compute"]}
{"id": "C57", "title": "A failed compute leaves earlier results intact", "statement": "If compute raises because of invalid arguments, the results of the previous successful compute are still returned unchanged.", "quantifier": "all histories with failing computes", "why_tests_cant": "failure paths after a success are rarely tested", "anchors": ["freud/locality.py: _PairCompute, _SpatialHistogram", "freud/density.py: RDF.compute", "freud/environment.py: BondOrder.compute"]}
{"id": "C58", "title": "NumThreads restores the thread count on exit", "statement": "Leaving a 'with NumThreads(n)' block, normally or by exception, restores the thread count that was in force when the block was entered; nested blocks restore in reverse order.", "quantifier": "all nestings, all orders of construction and entry", "why_tests_cant": "tests construct and enter in the same statement", "anchors": ["freud/parallel.py: NumThreads, set_num_threads"]}
{"id": "C59", "title": "UnitCell.generate_system replicates the basis", "statement": "generate_system(num_replicas=(nx,ny,nz)) returns a box nx,ny,nz times as large with exactly nx*ny*nz copies of each basis particle, grouped by basis particle, every copy being the basis position plus a lattice vector up to one common translation, all inside the new box; in fractional coordinates of the new box the copies of basis position f are at (f + m)/n for integers m.", "quantifier": "all unit cells, replica counts", "why_tests_cant": "unbounded replica counts", "anchors": ["freud/data.py: UnitCell.generate_system", "freud/locality/PeriodicBuffer.cc"]}
{"id": "C60", "title": "Interface returns exactly the points having a neighbor across", "statement": "Interface.point_ids and query_point_ids are the sorted distinct indices of points (query points) that occur in some bond, and their counts match. (False of the code: the documented default neighbors=None raises.)", "quantifier": "all neighbor lists", "why_tests_cant": "unbounded lists", "anchors": ["freud/interface.py: Interface.compute"]}
{"id": "C61", "title": "Assigning Box attributes leaves a consistent box", "statement": "After any sequence of assignments to the attributes of a Box (L, Lx, Ly, Lz, xy, xz, yz, dimensions, periodic and its components) the object behaves exactly like a Box freshly constructed from the attribute values it now shows, and an assignment changes no attribute but the one it names.", "quantifier": "all constructed boxes and all finite sequences of attribute assignments", "why_tests_cant": "The derived members (lower corner, inverse lengths) depend on the history of assignments; tests only try single assignments.", "anchors": ["freud/box.py: Box.L, Box.dimensions, Box.periodic setters", "freud/box/Box.h: Box::setL, Box::set2D"]}
{"id": "C62", "title": "The periodic center of mass respects periodic images and translations", "statement": "In a fully periodic box, Box.center_of_mass does not change when any particle is replaced by one of its periodic images or when the particles are reordered, equals the wrapped position when all particles coincide, moves with the particles under a common translation, and is the origin after Box.center, whenever the periodic average is well defined.", "quantifier": "all fully periodic boxes, all finite sets of particles with positive total mass, all translations and all image choices", "why_tests_cant": "The claim ranges over all positions, masses, images and translations, and involves the branch cut of the complex argument.", "anchors": ["freud/box/Box.h: Box::centerOfMass, Box::center", "freud/box.py: Box.center_of_mass, Box.center"]}
{"id": "C64", "title": "Filtering a neighbor list keeps bond data and sizes", "statement": "Every bond of filtered_nlist of FilterSANN and FilterRAD is a bond of the unfiltered list with its distance, weight and vector unchanged, and the filtered list is for the same numbers of points and query points, so it can be passed to any analysis of the same system.", "quantifier": "all neighbor lists, both filters, all settings", "why_tests_cant": "the sizes of the result depend on which indices happen to survive the filter", "anchors": ["freud/locality/FilterSANN.cc", "freud/locality/FilterRAD.cc", "freud/locality/NeighborList.cc: NeighborList(std::vector<NeighborBond>), validate"]}
{"id": "C66", "title": "Neighbor iteration visits each bond once", "statement": "A computation that walks over the neighbors of each query point sees exactly the bonds of that point in the neighbor list, each once and in list order, and a per-point result does not depend on the order in which the parallel loop handles the points.", "quantifier": "every sorted neighbor list, every query point and every order of the parallel loop", "why_tests_cant": "The iterator stops at the first bond of another point, so correctness depends on the list order for all lists; the schedule is chosen by the scheduler.", "anchors": ["freud/locality/NeighborComputeFunctional.h: NeighborListPerPointIterator, loopOverNeighborsIterator"]}
{"id": "C67", "title": "Local bond projections are the largest over equivalent directions", "statement": "For every bond and projection direction, LocalBondProjection reports the largest projection of the bond, seen in the frame of the bond's point, onto the directions equivalent to the given one; it does not change when the orientation or the direction is replaced by an equivalent one or when particle and bond are rotated together; the normalized value is between minus and plus the length of the direction.", "quantifier": "all neighbor lists, orientations, directions, finite symmetry groups and schedules", "why_tests_cant": "continuum of orientations and bonds, all groups, all schedules", "anchors": ["freud/environment/LocalBondProjection.cc: computeMaxProjection, LocalBondProjection::compute"]}
{"id": "C68", "title": "The Kabsch rotation is the best rotation", "statement": "For two point sets of the same size, the rotation computed by registration from matched points is a proper rotation (never a reflection) and no other proper rotation gives a smaller sum of squared distances between the rotated points and their partners.", "quantifier": "all pairs of point lists of equal length, every singular value decomposition of their covariance", "why_tests_cant": "a continuum of point sets and rotations; degenerate and reflected configurations are special", "anchors": ["freud/environment/Registration.h: KabschAlgorithm"]}
{"id": "C69", "title": "Clustered environments are returned aligned", "statement": "After EnvironmentCluster with a new object, the environment reported for every point is a rotated and reordered copy of its own environment; any two points of one cluster that were merged because they were found similar agree place by place within the threshold up to the chain of merges that joined them, and the environment reported for a cluster is the place-by-place mean of the environments of its points.", "quantifier": "all sorted neighbor lists, thresholds, registrations (with any random draw) and orders of merging", "why_tests_cant": "Merging reorders and rotates all members of a cluster through chains of maps; a wrong composition shows only for particular merge orders and permutations.", "anchors": ["freud/environment/MatchEnv.cc: EnvDisjointSet::merge, EnvDisjointSet::getAvgEnv, EnvironmentCluster::populateEnv"]}
{"id": "C70", "title": "Motif matches are matches, point by point", "statement": "After EnvironmentMotifMatch with a new object, the environment reported for every point is a rotated and reordered copy of its own environment; for a matching point it agrees with the motif place by place within the threshold, for the others it is the environment itself; whether a point matches depends only on the motif and its own environment, and without registration and ambiguous vectors a point matches exactly when a one-to-one matching within the threshold exists.", "quantifier": "all sorted neighbor lists, motifs, thresholds, registrations (with any random draw)", "why_tests_cant": "The motif is kept in one disjoint set with all the points handled before, so a match could disturb later ones only for particular orders; all inputs are quantified.", "anchors": ["freud/environment/MatchEnv.cc: EnvironmentMotifMatch::compute, isSimilar"]}
{"id": "C71", "title": "Motif distances are distances of the returned environments", "statement": "After EnvironmentRMSDMinimizer with a new object and a non-empty motif, the value reported for a point is the root mean square distance, place by place, between the motif and the environment reported for that point, which is a rotated and reordered copy of the point's environment (only reordered without registration); the value is -1 exactly when the sizes of motif and environment differ, and the environment is then unchanged.", "quantifier": "all sorted neighbor lists, non-empty motifs, registrations (with any random draw)", "why_tests_cant": "The value is computed before the environment is reordered through a disjoint set shared by all points; agreement must hold for all inputs and orders.", "anchors": ["freud/environment/MatchEnv.cc: EnvironmentRMSDMinimizer::compute, minimizeRMSD"]}
{"id": "C72", "title": "RotationalAutocorrelation is a function of the relative rotation", "statement": "For unit orientations the order of a particle is the normalized character (the mean of cos((l-2j)t) for j=0..l, with t half the angle between reference and orientation): it is real and between -1 and 1, is 1 only for unrotated particles, and does not change when orientation and reference are exchanged, both rotated together, or given by quaternions of opposite sign; the system order is the mean, whatever the schedule.", "quantifier": "all allowed l, all unit quaternions, all numbers of particles, all schedules", "why_tests_cant": "A sum over quantum numbers of products of factorials and powers: agreement with the closed form and the invariances must hold for a continuum of rotations and all l.", "anchors": ["freud/order/RotationalAutocorrelation.cc: hypersphere_harmonic, compute"]}
{"id": "C73", "title": "Wave vectors of the direct structure factor are commensurate with the box and within the limits", "statement": "Every wave vector at which StaticStructureFactorDirect evaluates the structure factor satisfies k.a = 2 pi n for every box vector a with an integer n, has magnitude between k_min and k_max, and is used only once; with num_sampled_k_points=0 all wave vectors are used as documented. The last part holds for boxes without tilt and coordinates n >= 0 only; it is false for other octants and for tilted boxes.", "quantifier": "all boxes (2D and 3D, tilted or not), limits, numbers of sampled points, random choices, thread orders", "why_tests_cant": "Tests compare with a reference on a few cubic boxes and average over bins, which hides missing wave vectors.", "anchors": ["freud/diffraction/StaticStructureFactorDirect.cc: reciprocal_isotropic, evaluate_quadratic_equation, should_keep_k_vector2D, should_keep_k_vector3D", "freud/diffraction.py: StaticStructureFactorDirect"]}
{"id": "C74", "title": "The direct structure factor does not depend on the choice of images, origin or order of particles", "statement": "StaticStructureFactorDirect gives the same structure factor when particles are replaced by periodic images (each by another one), wrapped into the box, reordered, or all moved by the same vector, and opposite wave vectors give the same value.", "quantifier": "all boxes, systems, query points, translations, wave vectors commensurate with the box, schedules", "why_tests_cant": "Tests compare a few random systems within a tolerance.", "anchors": ["freud/diffraction/StaticStructureFactorDirect.cc: accumulate, compute_F_k, compute_S_k, reciprocal_isotropic", "freud/diffraction.py: StaticStructureFactorDirect.compute"]}
{"id": "C75", "title": "The k-atic order is the mean of the k-th powers of the bond directions", "statement": "After Hexatic.compute on a 2D system, particle_order[i] is the (weighted) mean over the neighbors of i of exp(i k phi); its magnitude is at most 1 and is 1 exactly if all bonds agree modulo 2 pi/k; a regular star of m neighbors gives magnitude 1 when m divides k and 0 otherwise; turning the system by an angle a multiplies it by exp(i k a), a reflection conjugates it, and periodic images do not matter; it is not a number exactly when the weights add up to zero; a 3D box raises. (Not checked by the code: that the neighbor list belongs to the system.)", "quantifier": "all 2D boxes, points, neighbor lists, weights, k, and thread schedules", "why_tests_cant": "Tests check a few lattices; the bound, the equality case and the symmetry relations hold for every configuration and neighbor list.", "anchors": ["freud/order/HexaticTranslational.cc: computeGeneral, Hexatic::compute", "freud/order.py: Hexatic"]}
{"id": "C76", "title": "Steinhardt q_l is the rotation invariant of the bond directions", "statement": "After Steinhardt.compute, particle_harmonics[i] holds the (weighted) means of the spherical harmonics of the bond directions of particle i, and q_l of a particle is the square root of the mean of the Legendre polynomial P_l over all pairs of its bonds, weighted; with average it is that of the mean distribution over the neighbors and the particle itself, and the system value that of the mean over all particles. With non-negative weights it lies in [0, 1]; it does not change when all bonds are rotated or reflected, or when particles are replaced by images; it is not a number exactly when the weights add up to zero (without weights: no neighbors). Threads and earlier calls make no difference. (False of the code: the property ql, documented as the plain value, is averaged too with average=True.)", "quantifier": "all boxes, points, neighbor lists, weights, degrees l, options, thread schedules and call histories", "why_tests_cant": "Tests check a few crystals; the range, the invariance and the independence of schedule and history are claims about every configuration and execution.", "anchors": ["freud/order/Steinhardt.cc: computeYlm, baseCompute, computeAve, normalizeSystem, compute", "freud/order.py: Steinhardt"]}
{"id": "C77", "title": "Steinhardt w_l is the third order invariant", "statement": "With wl, the order of a particle and of the system is the sum over m1 + m2 + m3 = 0 of the Wigner 3j symbol times q_lm1 q_lm2 q_lm3 of the same distribution as for q_l (up to the digits of the stored symbols), with wl_normalize divided by the 3/2 power of the sum of |q_lm|^2 and not a number if that is zero; the sum is real, so that keeping the real part of each term loses nothing; it is exactly zero for odd l; l above 20 raises.", "quantifier": "all boxes, points, neighbor lists, weights, l, options, thread schedules and call histories", "why_tests_cant": "Tests compare a few values for a few l; symmetry, realness and the match of the order of the loops with the order of the table are claims for all l and all inputs.", "anchors": ["freud/order/Wigner3j.cc: reduceWigner3j, lmIndex", "freud/order/Steinhardt.cc: aggregatewl, normalizeSystem"]}
{"id": "C78", "title": "The stored Wigner 3j symbols are right", "statement": "For every l from 0 to 20 the table has exactly one number for each m1, m2 in the order in which the loops consume it, and each is the Wigner 3j symbol of the formula of Racah within one part in 10^15; larger l are refused.", "quantifier": "all l, m1, m2, m3", "why_tests_cant": "There are over 9000 literals; a wrong digit or sign in one of them shifts w_l slightly and passes tests on selected structures.", "anchors": ["freud/order/Wigner3j.cc: getWigner3j"]}
{"id": "C79", "title": "A bond order diagram counts bonds per solid angle", "statement": "After any history of compute calls (with or without reset) and reads, entry (i, j) of BondOrder.bond_order is the number of bonds of the calls since the last reset that point into sector (i, j), divided by the solid angle of the sector and the number of calls; the solid angles are positive and add up to 4 pi, so the integral of the diagram over the sphere is the mean number of bonds per call. Bonds that point straight down are the exception: they are in no sector. In the modes lbod and oocd the diagram does not change when the whole system is turned.", "quantifier": "all numbers of bins, modes, neighbor lists, orientations, histories, thread schedules", "why_tests_cant": "The binning must be right for every direction, including the borders of the bins and the poles, and for every interleaving of threads; tests look at a few crystals and compare sums.", "anchors": ["freud/environment/BondOrder.cc: BondOrder::BondOrder, accumulate, reduce, reset", "freud/environment.py: BondOrder.compute, bond_order"]}
{"id": "C80", "title": "Voronoi results belong to the cells of the diagram", "statement": "After Voronoi.compute the neighbor list has exactly one bond for each ridge between two particles (or images), sorted by query point, point and weight; its vector leads from the query point to the image of the point across the ridge, and is the difference of their positions up to a lattice vector; its distance is the length of the vector and its weight the area of the ridge, so the weights of a particle add up to the surface of its cell. Volumes are those of the cells, and polytopes are the cells moved to where the user has the points; in 2D they are the polygons in the plane with vertices ordered by angle. Results do not depend on what was computed before with the object.", "quantifier": "all boxes, points, cells with any number of faces and vertices, dimensions, earlier states of the object", "why_tests_cant": "The neighbor positions are reconstructed from faces by index arithmetic over flattened arrays and by a projection that must hit the right image for every cell; tests compare a few lattices.", "anchors": ["freud/locality/Voronoi.cc: Voronoi::compute", "freud/locality/NeighborBond.h: less_id_ref_weight", "freud/locality.py: Voronoi"]}
{"id": "C81", "title": "Continuous coordination numbers measure the shares of the neighbors in the Voronoi cell", "statement": "ContinuousCoordination gives for every particle the power, logarithmic and exponential numbers of the fractions of its Voronoi cell that belong to its neighbors, in the documented order, for any schedule. If the pyramids over the ridges fill the cell, the power number with exponent 1 is the number of neighbors, larger exponents give at most that number, logarithm and exponential at least that number, with equality exactly if all neighbors have equal shares. Without system and diagram it raises ValueError, with a diagram that was not computed RuntimeError. (The documented formula of the power number has the sum of the inverses; the code, and this claim, the inverse of the sum.)", "quantifier": "all Voronoi diagrams with positive volumes and ridges, powers, flags, thread schedules", "why_tests_cant": "The bounds and the equality cases are statements about all possible cells; tests compute numbers for a few lattices.", "anchors": ["freud/order/ContinuousCoordination.cc: ContinuousCoordination::compute", "freud/order.py: ContinuousCoordination.compute"]}
{"id": "C82", "title": "Local descriptors are the spherical harmonics of the bonds in the axes of their particle", "statement": "LocalDescriptors gives one row per bond, with (l_max+1)^2 columns (or the non-negative m only): the spherical harmonics of the direction of the bond in the principal axes of inertia of the bonds of its query point, in the axes of the particle, or in the coordinate axes. With max_num_neighbors only the first bonds of every query point are used, for the axes too; other rows are zero. The result does not depend on the schedule. Rotating the system with its orientations changes nothing in the mode particle_local; in the mode neighborhood, with distinct moments, only the signs of axes may change. Unknown modes and missing or wrongly shaped orientations are refused. (False of the code: rows of query points beyond the number of points stay zero.)", "quantifier": "all sorted neighbor lists, orientations, l_max, limits, rotations and thread schedules", "why_tests_cant": "Rotation invariance and the row of each bond must hold for every neighbor list and rotation; tests use one cluster.", "anchors": ["freud/environment/LocalDescriptors.cc: LocalDescriptors::compute", "freud/environment/LocalDescriptors.h: getSphWidth", "freud/environment.py: LocalDescriptors"]}
{"id": "C83", "title": "The cubatic order parameter is the order with respect to the best orientation found", "statement": "For unit orientations Cubatic.global_tensor is the mean of the cubatic tensors of the particles and particle_order the cubatic order with respect to each particle, whatever the schedule and the random numbers. orientation is a unit quaternion, cubatic_tensor its tensor and order the cubatic order with respect to it. The order is at most 1, with equality exactly if all particles have the same axes up to signs and order, and at least -7/3. It is unchanged by a rotation of the whole system, by turning each particle by a symmetry of the cube, and by exchanging particles. Each replicate is a run of simulated annealing with at most 10000 steps and the reported one is the best. With one replicate everything is independent of the schedule; with more the result depends on the division into blocks, also for a fixed seed. The constructor accepts exactly t_initial >= t_final >= 1e-6 and 0 < scale < 1; computing with no replicates raises.", "quantifier": "all non-empty lists of unit quaternions, parameters, random sequences and thread schedules", "why_tests_cant": "Maximality among the replicates, the equality case and reproducibility range over all orientations, random sequences and divisions into blocks; tests use one seed and a few configurations with tolerances.", "anchors": ["freud/order/Cubatic.cc: Cubatic::compute, calcCubaticTensor, calcCubaticOrderParameter, calculateGlobalTensor", "freud/order/Cubatic.h: tensor4", "freud/order.py: Cubatic"]}
{"id": "C84", "title": "Diffraction patterns are centred, bounded averages of structure factors", "statement": "For a cubic box, a unit view orientation and a zoom other than zero DiffractionPattern.compute gives a frame whose pixel (output_size//2, output_size//2) is the number of points, for every grid size, output size, zoom, peak width, view and weights; no pixel is negative and, for non-negative weights, none is above the number of points. In the default view every pixel is the bilinear interpolation of the blurred intensities of the points on the pixel grid; for points on that grid and integer frequencies it is the static structure factor S(k) times a Gaussian, and the pattern does not depend on periodic images. diffraction is the mean of the frames since the last reset, k_values and k_vectors belong to the last successful call, in any history of calls, failures and reads. Boxes that are not cubic and weights of another length are refused. (False of the code: diffraction[i, j] belongs to k_vectors[j, i]; in turned views the pattern depends on images; a failed call with reset=True destroys the earlier result.)", "quantifier": "all points, weights, zooms, grid and output sizes, view orientations and histories of calls", "why_tests_cant": "Tests check the centre for ten random views and peaks of symmetric lattices, which cannot tell rows from columns; the claims range over all systems, sizes of either parity and histories.", "anchors": ["freud/diffraction.py: DiffractionPattern.compute, _calc_proj, _transform, k_values, k_vectors, diffraction", "freud/box.py: Box.cubic"]}
{"id": "C85", "title": "Results do not depend on which engine or form the neighbors come from", "statement": "For a fully periodic box, points and query points inside it and a ball query with a cutoff below half the smallest plane distance, a (box, points) pair, AABBQuery, LinkCell of any cell width and CellQuery (fresh or used before) all give the same neighbor list - whatever the threads did - and hand a compute class the same bonds, each once, whether the neighbors are given as query arguments or as a neighbor list made from any of these. The loops of the compute classes, of toNeighborList and of the Python iterator visit every bond of the engine once. A query is accepted by each engine for exactly the same ranges, except that LinkCell does not check the cutoff against the box. Hence an RDF accumulated over any frames holds in bin k the number of pairs with minimum-image distance between the edges of the bin divided by points x density x shell volume x frames, and its cumulative count the number of pairs below the upper edge per query point and frame. (False of the code: iterating over a query with no query points reads past the end of an array.)", "quantifier": "all boxes, point sets, query points, cutoffs, engines, cell widths, schedules, sort outcomes and sequences of frames", "why_tests_cant": "Tests compare a few engines on random systems; the claim is about all systems, every schedule and the whole chain from coordinates to histogram.", "anchors": ["freud/locality/NeighborQuery.h: NeighborQueryIterator, toNeighborList, NeighborQueryPerPointIterator", "freud/locality/RawPoints.h: RawPoints", "freud/locality/NeighborComputeFunctional.h: loopOverNeighbors", "freud/locality.py: NeighborQuery.from_system, NeighborQueryResult", "freud/density/RDF.cc: RDF::accumulate"]}
{"id": "C63", "title": "Arrays a user kept do not change behind their back", "statement": "An array obtained from a property of an accumulating compute object (RDF, PMFT, BondOrder: results and bin_counts) keeps its contents for ever if the object is reset - as compute(reset=True) does - or deleted before its results are read again, whatever is done with this object afterwards or with other objects; repeated reads and changes of configuration without a new frame do not change it either; in general it holds the results of the object at the last read before its next reset or deletion. Objects do not influence each other. The bond arrays obtained from a neighbor list do not change by filters, copies, reads of counts and segments, a new Voronoi computation, or anything done with other lists. (Not protected by the code: compute(reset=False) followed by a read changes arrays obtained earlier; sort rearranges arrays obtained earlier; the list returned by Voronoi.nlist shows other bonds after the next compute.)", "quantifier": "all histories of any number of compute objects (construction, frames, resets, reads, configuration changes, deletion) and neighbor lists", "why_tests_cant": "tests/test_managedarray.py repeats one pattern of calls 25 times; the claim is about all interleavings of all operations on all objects.", "anchors": ["freud/locality/BondHistogramCompute.h: reset, reduceAndReturn", "freud/util/Histogram.h: ThreadLocalHistogram::reduceInto, Histogram", "freud/density/RDF.cc: RDF::reset, RDF::reduce", "freud/pmft/PMFT.h: reset", "freud/environment/BondOrder.cc: reset", "freud/util/export-ManagedArray.h: toNumpyArray", "freud/locality/NeighborList.cc: filter, sort, copy, resize, setNumBonds", "freud/locality/Voronoi.cc: compute", "freud/locality.py: Voronoi.nlist"]}
{"id": "C65", "title": "A complete neighbor shell does not depend on how many further neighbors were offered", "statement": "If FilterSANN or FilterRAD (closed mode) with allow_incomplete_shell=False succeeds on the neighbors within a cutoff, then it succeeds for every longer unfiltered list - a larger cutoff, or the default neighbors=None (all pairs) - and keeps the same pairs with the same distances in the same order (FilterRAD: the very same list); per query point this already holds if only the shell of that point is complete. In open mode the result for a cutoff is the part of the result for a larger cutoff that lies within the cutoff. In a periodic system and with cutoffs below half the box this holds for every query engine and schedule. (Not the same: the vectors of FilterSANN, which are reversed when the default neighbors are used.)", "quantifier": "all systems, query points, engines, cutoffs, radii, thread schedules and outcomes of unstable sorts", "why_tests_cant": "the independence of the cutoff concerns every pair of unfiltered lists and every configuration; a test compares a few cutoffs on a few systems", "anchors": ["freud/locality/FilterSANN.cc:FilterSANN::compute", "freud/locality/FilterRAD.cc:FilterRAD::compute", "freud/locality.py:Filter._preprocess_arguments", "freud/locality/NeighborList.cc:NeighborList::NeighborList (all pairs)", "freud/locality/NeighborComputeFunctional.cc:makeDefaultNlist"]}
{"id": "C86", "title": "Results do not depend on the numbering, the origin and the periodic images of the particles", "statement": "Given the same particles with other numbers, moved by a common vector and each by its own lattice vector, neighbor lists hold the same bonds under the other numbers, and RDF, LocalDensity, Hexatic, Cluster and Steinhardt give the same results per particle (with the numbers exchanged accordingly) and the same system averages. (AABBQuery needs positions in the box: a particle given by an image two boxes away is not found.)", "quantifier": "all boxes, all permutations of the particles, all translations, all choices of periodic images, all ways to hand over the neighbors", "why_tests_cant": "The group of relabellings, translations and image choices is infinite; tests compare a few shuffled systems.", "anchors": ["freud/locality/AABBQuery.cc", "freud/locality/LinkCell.cc", "freud/locality/CellQuery.h", "freud/density/RDF.cc: RDF::accumulate", "freud/density/LocalDensity.cc: LocalDensity::compute", "freud/order/HexaticTranslational.cc: Hexatic::compute", "freud/cluster/Cluster.cc: Cluster::compute", "freud/order/Steinhardt.cc: Steinhardt::compute"]}
{"id": "C87", "title": "Every accepted form of a system and of its neighbors means the same", "statement": "A system given as (box, points), as an object with box and points, or as a frame of GSD, HOOMD, garnett, OVITO or MDAnalysis is taken as the cell and positions it describes, with the box given as a Box, a list, a dictionary, an object or a matrix; arrays of the wrong shape raise. A compute class called with a cutoff visits exactly the pairs within it, each once, leaving out pairs with equal numbers exactly if no query points are given, unless exclude_ii says otherwise.", "quantifier": "all cells, all positions, all forms, all query arguments with a cutoff", "why_tests_cant": "The tests try one cubic GSD frame; tilted, flat and rotated cells in each form, and every combination with query points and arguments, are not tried.", "anchors": ["freud/locality.py: NeighborQuery.from_system", "freud/locality.py: _PairCompute._preprocess_arguments", "freud/locality.py: _PairCompute._resolve_neighbors", "freud/locality.py: _SpatialHistogram.default_query_args", "freud/box.py: Box.from_box", "freud/box.py: Box.from_matrix", "freud/util.py: _convert_array", "freud/util.py: _convert_box"]}
{"id": "C88", "title": "An accepted call reads only inside the arrays it was given", "statement": "A compute call that does not raise never reads an element of a per-particle array, of the query points, of the equivalent orientations or of its own tables that does not exist, whatever NeighborList, query points and optional arrays the user passed. This holds of LocalDescriptors, SolidLiquid, EnvironmentCluster, FilterRAD, Hexatic, Steinhardt, GaussianDensity and RotationalAutocorrelation. For the other methods it holds exactly under conditions which nothing in the code checks: the NeighborList was made for a system of these sizes; query values or orientations are given when there are more query points than points; there is at least one equivalent orientation; there are as many orientations (LocalBondProjection) or masses (ClusterProperties) as points, and at least one point.", "quantifier": "all numbers of points and query points, all neighbor lists and searches with all bonds, all lengths of all optional arrays", "why_tests_cant": "A read past the end of an array usually returns some number instead of failing, and the combinations of sizes, defaults and bonds are unbounded.", "anchors": ["freud/density.py:CorrelationFunction.compute", "freud/pmft.py:PMFTR12.compute", "freud/pmft.py:PMFTXY.compute", "freud/pmft.py:PMFTXYZ.compute", "freud/environment.py:BondOrder.compute", "freud/environment.py:AngularSeparationNeighbor.compute", "freud/environment.py:LocalBondProjection.compute", "freud/environment.py:LocalDescriptors.compute", "freud/cluster.py:Cluster.compute", "freud/cluster.py:ClusterProperties.compute", "freud/locality/NeighborComputeFunctional.cc:makeDefaultNlist", "freud/locality/NeighborList.cc:validate", "freud/locality/NeighborComputeFunctional.h:loopOverNeighbors"]}
{"id": "C89", "title": "Results do not depend on the unit of length", "statement": "If the box, the positions and all cutoffs and diameters are given in another unit of length (all multiplied by a positive number c), the same bonds are found, with lengths and vectors multiplied by c; RDF values and neighbor counts, numbers of neighbors of LocalDensity, k-atic and Steinhardt order parameters and clusters are the same; densities are divided by the area or volume factor and mean squared displacements multiplied by c squared. A box multiplied by c is the box in the other unit, if it is periodic in all directions.", "quantifier": "all positive factors, all boxes with all tilts, all positions, all engines, all thread schedules", "why_tests_cant": "Tests use systems of one size; a cutoff, tolerance or normalization with a hidden absolute length shows only at other scales.", "anchors": ["freud/locality/AABBQuery.cc", "freud/locality/LinkCell.cc", "freud/density/RDF.cc", "freud/density/LocalDensity.cc", "freud/order/HexaticTranslational.cc", "freud/order/Steinhardt.cc", "freud/cluster/Cluster.cc", "freud/msd.py:MSD.compute", "freud/box.py:Box.__mul__"]}
{"id": "C90", "title": "Binning in floating-point arithmetic", "statement": "With the arithmetic of the machine (every operation rounded to the nearest number with p binary digits), a value inside the range of a histogram axis is counted in a bin that exists, values outside are not counted, a greater value never falls into an earlier bin, the least value is in the first bin, and the bin is at most one away from the bin that the definition of the bins gives; for bins whose width is a power of two it is that bin. True for axes with up to 4194304 bins (2097152 for the distance of one); false beyond. The edges that are reported need not be the edges that are used.", "quantifier": "all precisions, all axes, all values", "why_tests_cant": "Which values fall on the wrong side of an edge depends on the rounding of each of four operations, and there are billions of values for each axis.", "anchors": ["freud/util/Histogram.h:RegularAxis.bin", "freud/util/Histogram.h:RegularAxis"]}
{"id": "C91", "title": "Wrapping and images in floating-point arithmetic", "statement": "With the arithmetic of the machine, a wrapped position is a lattice translate of the position up to 150 rounding units of the size of the system, in every box. In a box without tilt it lies inside the box, not on the upper faces, without exception. Away from the faces the image numbers are those of the definition and unwrapping restores the position up to 400 rounding units. On the faces and in tilted boxes the last two are false, and wrapping twice can move a position.", "quantifier": "all precisions, all boxes and tilts, all positions", "why_tests_cant": "Failures need positions within a rounding error of a face of the box.", "anchors": ["freud/box/Box.h:wrap", "freud/box/Box.h:makeFractional", "freud/box/Box.h:makeAbsolute", "freud/box/Box.h:getImage", "freud/box/Box.h:unwrap", "freud/util/utils.h:modulusPositive"]}
{"id": "C92", "title": "Sums over threads in floating-point arithmetic", "statement": "A sum accumulated by several threads in floating-point arithmetic differs from the exact sum by at most (1+u)^(N+T)-1 times the sum of the absolute values, where N is the greatest number of values a thread adds and T the number of threads, so two runs agree up to twice that. Counts are exact, and so the same in every run, up to 2^p (16777216 in single precision). Sums of other numbers can depend on the threads, and counts beyond the limit are lost.", "quantifier": "all precisions, all lists of values, all distributions over threads, all orders", "why_tests_cant": "The distribution over threads differs from run to run and machine to machine.", "anchors": ["freud/util/ThreadStorage.h:reduceInto", "freud/util/Histogram.h:reduceOverThreads"]}
{"id": "C93", "title": "Neighbors and cells in floating-point arithmetic", "statement": "With the arithmetic of the machine, a ball query returns exactly the pairs of an image and a point whose computed distance passes the test, each once: the bounding boxes of the tree never lose one. These are the neighbors of the exact definition, except for pairs whose distance is within 44 rounding units of the size of the system (and four of the cutoff) of a cutoff. In a box without tilt every wrapped point has a cell of the cell list. Near the cutoff neighbors need not be mutual, and in a tilted box a wrapped point can have no cell.", "quantifier": "all precisions, all boxes and tilts, all points, query points and cutoffs", "why_tests_cant": "A lost neighbor would need a point within a rounding error of the boundary of a bounding box and of the cutoff.", "anchors": ["freud/locality/AABBQuery.cc:AABBQueryBallIterator.next", "freud/locality/AABB.h:overlap", "freud/locality/AABBTree.h:buildNode", "freud/locality/NeighborQuery.h:updateImageVectors", "freud/locality/LinkCell.cc:getCellCoord"]}
{"id": "C94", "title": "Correlation functions, potentials of mean force and bond order diagrams do not depend on how a system is described", "statement": "CorrelationFunction, PMFTXY, PMFTXYT, PMFTR12, PMFTXYZ and BondOrder give the same result after computing the same frames described in another way: with other numbers of the particles and of the query points (and their values or orientations listed accordingly), another origin, other periodic images, neighbors from another engine or from a neighbor list, other thread schedules. They give the same result in another unit of length, if the ranges of the histogram are given in this unit too.", "quantifier": "all numbers of frames, all periodic boxes and particles, values and orientations, all renumberings, shifts and images, all scale factors, all bin numbers and ranges, all schedules", "why_tests_cant": "Compares two runs over all permutations, images, units, sources and schedules.", "anchors": ["freud/density/CorrelationFunction.cc:accumulate", "freud/pmft/PMFTXY.cc:accumulate", "freud/pmft/PMFTXYT.cc:accumulate", "freud/pmft/PMFTR12.cc:accumulate", "freud/pmft/PMFTXYZ.cc:accumulate", "freud/environment/BondOrder.cc:accumulate"]}
{"id": "C95", "title": "Results do not depend on the choice of the unit cell or on a rotation of the system", "statement": "A periodic system may be described with any cell of its lattice, and turned in space. If both descriptions are within the accepted cutoffs, all neighbor queries give the same bonds with turned vectors; RDF, CorrelationFunction, LocalDensity, clusters and Steinhardt q_l are the same; PMFTXY, PMFTXYT, PMFTR12, PMFTXYZ and BondOrder (lbod and oocd) are the same if the orientations are turned with the system; Hexatic psi_k is multiplied by exp(i k a), for a rotation by the angle a. What does depend on the cell is which cutoffs a query accepts.", "quantifier": "all pairs of cells of the same lattice, all rotations (with reflections where no orientations occur), all particles, numberings, origins, images, sources of neighbors, schedules, numbers of frames", "why_tests_cant": "Compares two runs over all cells of a lattice and all rotations; a test takes a few of them.", "anchors": ["freud/box/Box.h:wrap", "freud/locality/AABBQuery.cc:updateImageVectors", "freud/density/RDF.cc:accumulateRDF", "freud/pmft/PMFTXYZ.cc:accumulate", "freud/order/Steinhardt.cc:compute", "freud/order/HexaticTranslational.cc:compute", "freud/cluster/Cluster.cc:compute"]}
{"id": "C96", "title": "The array methods of Box act row by row and change nothing else", "statement": "make_absolute, make_fractional, wrap, unwrap, get_images, contains, compute_distances, compute_all_distances and center of an array give the result of each row from this row, for arrays of any type and memory layout and for every interleaving of the memory accesses of the threads. Without out, a new array is returned and no memory in use changes, in particular not the argument. With out, this array is filled and returned and nothing else changes; it may be the argument itself. The accepted arguments are exactly arrays of shape (N, 3) or (3,), and output arrays of shape (N, 3) and type float32 that are contiguous and writable. Limits: an output array that overlaps the argument in another way is accepted and gives results that depend on the schedule (not for unwrap); an output array of shape (3,), which the documentation allows, is refused.", "quantifier": "all boxes, memory contents, arrays, views and layouts, numbers of rows below 2^32, all interleavings of the accesses to memory", "why_tests_cant": "A test runs some arrays with some schedules; aliasing and interleavings are not enumerable.", "anchors": ["freud/box.py: Box.make_absolute, Box.make_fractional, Box.wrap, Box.unwrap, Box.get_images, Box.contains, Box.compute_distances, Box.compute_all_distances, Box.center", "freud/util.py: _convert_array", "freud/box/export-Box.cc", "freud/util/utils.h: forLoopWrapper"]}
{"id": "C97", "title": "The arguments of a PMFT mean what they say", "statement": "Orientations of two-dimensional particles may be given to PMFTXY, PMFTXYT and PMFTR12 as angles or as quaternions. One angle per particle is used as it is, for every number of particles (also four), one quaternion per particle that is a rotation about the z axis becomes the angle by which it rotates counterclockwise, and no accepted array of any shape is read in another way. Without neighbors, every pair whose separation falls in the range of the histogram is counted, for every form of the system. With query arguments, shiftvec moves all separations of a PMFTXYZ. Limits: quaternions about z are refused if some particle is rotated and another is not, or if the z component is negative; a pair exactly at the lower corner of the range is not among the default neighbors; shiftvec has no effect on a neighbor list; it is added to the separations, so that a neighbor at shiftvec is counted at twice shiftvec and not at the center, and it is added in the frame of the box, not in that of the query particle.", "quantifier": "all arrays of orientations and their shapes, all numbers of particles, all boxes and systems, all ranges, all query engines and schedules", "why_tests_cant": "A test passes some arrays of some shapes. That no accepted shape is misread and no pair is missed is a statement about all of them.", "anchors": ["freud/pmft.py: _quat_to_z_angle, _gen_angle_array, PMFTR12, PMFTXYT, PMFTXY, PMFTXYZ", "freud/locality.py: _SpatialHistogram.default_query_args", "freud/pmft/PMFTXYZ.cc: PMFTXYZ::accumulate"]}
{"id": "C98", "title": "The named unit cells are the named structures", "statement": "In every system made by generate_system from UnitCell.sc, bcc, fcc, hcp, square, hex or graphene, every particle has exactly 6, 8, 12, 12, 4, 6 or 3 neighbors at the nearest-neighbor distance of the structure and no others up to the distance of its second shell, whichever particle, size, scale, cutoff between the two shells, query engine and form of the neighbors; the same holds for rectangular and centered rectangular cells with their aspect ratios. Oblique cells have the requested sides and angle. In a hexagonal (square) crystal the sixfold (fourfold) order of every particle is exactly 1. make_random_system puts one point into the box for every sample, at the sampled box coordinates.", "quantifier": "all numbers of replicas, all scales, all particles of the system, all cutoffs between the first two shells below half of the box, all query engines and forms of neighbors, all schedules, all aspect ratios and angles, all random samples", "why_tests_cant": "Tests build a few small systems and compare a few particles within a tolerance; the claim is about every particle of every size and scale, including those whose neighbors are across the faces of the box, and about the absence of further neighbors.", "anchors": ["freud/data.py: UnitCell.hcp, UnitCell.fcc, UnitCell.bcc, UnitCell.sc, UnitCell.square, UnitCell.rectangular, UnitCell.oblique, UnitCell.hex, UnitCell.graphene, UnitCell.generate_system, make_random_system", "freud/box.py: Box.from_box, Box.from_box_lengths_and_angles, Box.cube, Box.square", "freud/order/HexaticTranslational.cc: Hexatic::compute"]}
{"id": "C99", "title": "Exchanging points and query points reverses every bond", "statement": "If points and query points (with their values or orientations) change places, the neighbors found within a cutoff are the same pairs the other way round, with opposite vectors. Hence: a point is a neighbor of a query point exactly when the query point is a neighbor of the point; g(r) of A around B is g(r) of B around A (normalization_mode exact), and in mode finite_size they differ by a known ratio; n_r is scaled by the ratio of the numbers; the correlation of A with B is the complex conjugate of that of B with A; PMFTR12 is exchanged in its two angles; the directions counted by a bond order diagram are reversed.", "quantifier": "all periodic boxes, all points and query points, all cutoffs below half of the box, all engines and forms of neighbors, all schedules and numbers of threads, all sequences of frames", "why_tests_cant": "Tests compare two or three random systems; the claim is for all systems, including pairs across faces and those whose distance is on the edge of a bin.", "anchors": ["freud/locality.py: NeighborQuery.query, NeighborList", "freud/density.py: RDF.compute, CorrelationFunction.compute", "freud/pmft.py: PMFTR12.compute", "freud/locality/AABBQuery.cc", "freud/locality/LinkCell.cc", "freud/density/RDF.cc", "freud/density/CorrelationFunction.cc", "freud/pmft/PMFTR12.cc"]}
{"id": "C100", "title": "Results of a system are put together from those of its parts", "statement": "What is found for a query point does not depend on which other query points are asked for, and the neighbors among two lots of points are the neighbors among the first lot and those among the second. Hence: g(r) around two lots of points is the mean of those around either, weighted by the numbers of points, and n_r adds up; for a system of two kinds of particles N^2 g = N_A^2 g_AA + N_A N_B (g_AB + g_BA) + N_B^2 g_BB in every bin; PMFTXY, PMFTXYT and PMFTR12 around two lots of points are the weighted means of those around either.", "quantifier": "all periodic boxes, all ways of putting a system together from two parts, all cutoffs below half of the box, all engines and forms of neighbors (different ones for the parts), all schedules, all sequences of frames", "why_tests_cant": "The engines sort all points into one tree or one grid, so parts and whole follow different paths through the code; tests compare a few systems, the claim is for all.", "anchors": ["freud/locality.py: NeighborQuery.query, AABBQuery, LinkCell", "freud/density.py: RDF.compute", "freud/pmft.py: PMFTXY.compute, PMFTXYT.compute, PMFTR12.compute", "freud/locality/AABBQuery.cc", "freud/locality/LinkCell.cc", "freud/density/RDF.cc", "freud/pmft/PMFT.h"]}
{"id": "C101", "title": "w_l does not depend on the orientation of the system", "statement": "For every degree l the spherical harmonics exist with the properties on which the results of Steinhardt rest (addition theorem, symmetry in m), so those results are not about an empty case. With wl, every value is the third order invariant of the directions of the neighbors, up to one part in 10^15 of the largest possible value (the digits of the table). If all bonds are turned by one rotation, with or without a mirror image, w_l of every particle and of the system is not a number in the same places and otherwise changes by at most two parts in 10^15.", "quantifier": "all l (for the values with wl: all l up to 20, beyond which the code raises an exception), all rotations and mirror images, all legal neighbor lists, weights that are not negative, with and without average and wl_normalize, all schedules", "why_tests_cant": "Tests turn one crystal by a few rotations; invariance under all rotations of a sum of hundreds of products with tabulated coefficients is a theorem of representation theory.", "anchors": ["freud/order.py: Steinhardt", "freud/order/Steinhardt.cc: computeYlm, aggregatewl, normalizeSystem", "freud/order/Wigner3j.cc: getWigner3j, reduceWigner3j"]}
{"id": "C102", "title": "Boxes that compare equal are the same, and a box survives being written out", "statement": "== of boxes is an equivalence relation, and two boxes that compare equal give the same result in every method. Reading back what to_dict, to_box_params, to_matrix or the printed form of a box give makes an equal box. Scaling a box twice is scaling it by the product, and the volume scales with the third power (the area with the second). Box.cube and Box.square are the boxes that [L, L, L] and [L, L] describe.", "quantifier": "all boxes of the constructor, all sequences of later assignments to their attributes, all scale factors", "why_tests_cant": "Tests compare a few boxes; equality compares ten attributes while the results depend on further internal numbers, so that it holds only if these agree after every history of assignments.", "anchors": ["freud/box.py: Box.__eq__, Box.to_dict, Box.to_box_params, Box.to_matrix, Box.__repr__, Box.__mul__, Box.cube, Box.square, Box.from_box"]}
{"id": "C103", "title": "Grids of SphereVoxelization and GaussianDensity for every width argument and every box", "statement": "An integer width gives that many voxels along every axis, a sequence of two or three integers gives them axis by axis, and a 2D box always has one layer; everything else raises an exception. After any history of calls, including calls that raised, voxels and density have that shape, (w_x, w_y) in 2D and (w_x, w_y, w_z) in 3D. In a box of any shape a voxel is marked only if its center is within r_max of an image of a point.", "quantifier": "all width arguments and radii, all histories of calls, all boxes and points, all schedules", "why_tests_cant": "Tests use a few widths on fixed boxes, and only orthorhombic ones; the width in effect changes with the first box and is kept afterwards.", "anchors": ["freud/density.py: SphereVoxelization, GaussianDensity", "freud/density/SphereVoxelization.cc: SphereVoxelization::compute", "freud/density/GaussianDensity.cc: GaussianDensity::compute"]}
{"id": "C104", "title": "SolidLiquid measures the agreement of the surroundings of two particles and does not depend on orientation", "statement": "After SolidLiquid(l, q_threshold, solid_threshold, normalize_q).compute(system), ql_ij holds for every bond the mean, over one bond of each of the two particles, of the Legendre polynomial of degree l of the cosine of the angle between the two bonds; with normalize_q it is divided by the geometric mean of the same number of each particle with itself and then lies between -1 and 1. It is not a number only if a particle has no neighbors or q_l zero, and such a bond is never solid-like. The bond in the other direction has the same value. num_connections counts the bonds above q_threshold, and two particles are in the same cluster exactly if a chain of such bonds between particles with at least solid_threshold of them joins them. Rotating or mirroring the system changes nothing. If all particles see the same directions, or for even l opposite ones, and q_l is not zero, every normalized value is 1 and every particle has as many connections as neighbors. The constructor takes a q_threshold that is not negative and rounds solid_threshold down.", "quantifier": "every degree l, thresholds and normalization, every box, set of points and neighbor list of the points with themselves, every earlier use of the object, every thread schedule, every rotation and mirror image", "why_tests_cant": "tests use a few crystals and check the values in one orientation; the result must be right for every arrangement of neighbors, degree and orientation", "anchors": ["freud/order/SolidLiquid.cc: SolidLiquid::SolidLiquid, SolidLiquid::compute", "freud/order/SolidLiquid.h: getQlij, getNList, getNumberOfConnections", "freud/order/Steinhardt.cc: Steinhardt::compute", "freud/order.py: SolidLiquid"]}
{"id": "C105", "title": "Plots show the data at the right place", "statement": "box_plot draws each edge of the box exactly once, at the requested periodic image, in the requested color and inside the axes; system_plot shows every point with equal scales; the cluster bar charts show the ten largest clusters with their sizes; the picture of a density, a PMFT or a diffraction pattern shows at a point of the axes the value of the bin (or wave vector) that the point belongs to; the cells of a Voronoi diagram have the color the color bar assigns to their number of sides or area. (Parts that are false of the code are recorded as counterexamples.)", "quantifier": "for all boxes, images, point sets, cluster labels, arrays, numbers of bins, extents and points of the axes", "why_tests_cant": "Image tests compare pictures of one symmetric system; a transposed or mirrored image, a cut corner or a shifted color looks plausible and differs only for systems without that symmetry.", "anchors": ["freud/plot.py: box_plot, system_plot, clusters_plot, density_plot, pmft_plot, diffraction_plot, voronoi_plot", "freud/cluster.py: Cluster.plot", "freud/diffraction.py: DiffractionPattern.plot"]}
{"id": "C106", "title": "Known crystals get their known order parameters", "statement": "In every system made with generate_system from the cells sc, bcc, fcc and hcp, of any number of replicas and any scale, and with a neighbor list of the nearest neighbors made by any kind of query, Steinhardt gives every particle and the whole system exactly the value of q_4 and q_6 of the ideal crystal (sc 7/12 and 1/8, bcc with 8 neighbors 7/27 and 32/81, fcc 7/192 and 169/512, hcp 49/5184 and 29237/124416, each under a square root), with and without averaging over neighbors and with and without weights; q_l is zero for all odd l in sc, bcc and fcc. SolidLiquid finds the value 1 on every bond, all neighbors of every particle connected, and all bonds or none solid depending on solid_threshold. The nearest neighbors connect the whole crystal: a cluster search finds one cluster. Hexatic gives 1 if 6 divides k and 0 if not in the hexagonal crystal, and the same with 4 in the square crystal.", "quantifier": "all numbers of replicas, scales, cutoffs between first and second shell, kinds of queries, schedules, previous calls, averaging and weighting modes, all odd l, all k, all thresholds below 1", "why_tests_cant": "tests compare a few crystals of fixed size with a tolerance; they do not cover all sizes, scales, cutoffs and schedules, all odd degrees or all k, nor do they give exact values", "anchors": ["freud/data.py:UnitCell", "freud/order.py:Steinhardt", "freud/order/Steinhardt.cc", "freud/order.py:SolidLiquid", "freud/order/SolidLiquid.cc", "freud/order.py:Hexatic", "freud/order/HexaticTranslational.cc", "freud/cluster/Cluster.cc"]}
{"id": "C107", "title": "Steinhardt for several l at once gives for each l what it gives for this l alone", "statement": "Steinhardt(l=[l0, l1, ...]) gives, after any history of compute calls and for every thread schedule, arrays with one column per l, in the order of the list; column j of ql and particle_order, entry j of order and of particle_harmonics are exactly those that an object made with l=lj alone gives after the same calls, also if an l occurs twice. A list of length one behaves like the number: the properties are then flat arrays and single values. With wl=True one l above 20 makes every compute raise an exception. The constructor refuses an empty list and numbers that are negative or do not fit in 32 bits.", "quantifier": "all lists of l, all flags (average, wl, weighted, wl_normalize), all histories of calls, all points, boxes and neighbor lists, all thread schedules and orders of reduction", "why_tests_cant": "The values of all l share flat arrays whose index arithmetic depends on the number of l, on l and on the particle; tests compare a few lists on one system. That no particle, l, schedule or earlier call makes two columns touch has to be shown for all of them.", "anchors": ["freud/order/Steinhardt.cc: reallocateArrays, compute, baseCompute, computeAve, normalizeSystem, aggregatewl", "freud/order/Steinhardt.h: getQl, getParticleOrder", "freud/order.py: Steinhardt.__init__, l, order, particle_order, ql, particle_harmonics"]}
{"id": "C108", "title": "Analyses of the same bonds agree with one another", "statement": "For the same two-dimensional frames and bonds, the correlation function of PMFTR12 averaged over all its angle bins equals density.RDF (exact normalization, r_min = 0) with the same radial bins, and the correlation function of PMFTXYT averaged over its angle bins equals that of PMFTXY with the same x and y bins. A CorrelationFunction of a constant value v of the points and w of the query points is conj(v)*w exactly in the bins where the RDF with the same bins is not zero, and zero in the other bins. This holds for every choice of orientations, numbers of bins and thread schedules, which need not be the same for the two objects.", "quantifier": "all numbers of bins and ranges the constructors accept, all lists of frames (boxes, points, orientations, bonds from a query or a neighbor list), all thread schedules and reduction orders of either object", "why_tests_cant": "The classes have separate loops, normalizations and Jacobians; a test compares them for one system and one number of bins, not for every number of angle bins, every set of orientations and every schedule.", "anchors": ["freud/pmft/PMFTR12.cc PMFTR12::accumulate", "freud/pmft/PMFTXYT.cc PMFTXYT::accumulate", "freud/pmft/PMFTXY.cc PMFTXY::accumulate", "freud/density/RDF.cc RDF::accumulate", "freud/density/CorrelationFunction.cc CorrelationFunction::accumulate", "freud/pmft/PMFT.h PMFT::reduce", "freud/density.py RDF", "freud/pmft.py PMFTR12"]}
{"id": "C109", "title": "A larger cell of the same periodic system gives the same intensive results", "statement": "Describe a periodic system by a larger cell, one that holds m of the original cells, with the particles and their data repeated and perhaps moved and renumbered; UnitCell.generate_system with k times as many replicas along each direction gives such a description, moved by its shift. For a cutoff below half of either cell, the neighbors of every copy are, up to the numbering, the neighbors of the original particle. LocalDensity, Hexatic and Steinhardt give every copy the values of its original (and Steinhardt the same global order). CorrelationFunction and all PMFTs give the same values, RDF the same n_r and, in the exact mode, the same g(r); in the finite_size mode g(r) changes by exactly m(N-1)/(mN-1), the correction for the number of particles.", "quantifier": "all boxes and larger boxes (of any shape, 2D or 3D) whose lattice is contained in that of the first, all points and repetitions of them, cutoffs, bins, lists of frames, neighbor sources, histories of the Steinhardt object, thread schedules and reduction orders", "why_tests_cant": "A test replicates one crystal a few times; the claim is that no result depends on the choice of the cell, whatever the shape of the larger cell, the numbering of the copies and the order of the bonds.", "anchors": ["freud/locality.py NeighborQuery.query", "freud/data.py UnitCell.generate_system", "freud/density/RDF.cc RDF::reduce", "freud/density/CorrelationFunction.cc CorrelationFunction::reduce", "freud/density/LocalDensity.cc LocalDensity::compute", "freud/order/HexaticTranslational.cc Hexatic::compute", "freud/order/Steinhardt.cc Steinhardt::compute", "freud/pmft/PMFT.h PMFT::reduce"]}
{"id": "C110", "title": "What lies out of range does not matter", "statement": "The neighbors with a distance in an interval are the same for every range r_min, r_max that includes the interval; a neighbor list made with a larger range and cut with filter_r holds the bonds of the list made with the smaller range. So an RDF or CorrelationFunction with more bins of the same width (and neighbors found further out) has, in its first bins, the values of the shorter one, n_r included; and with a larger range clusters are joined, never divided, and there are not more of them. Particles out of the range of a particle do not matter to it: if other particles are moved, added or removed but all of this happens at a distance of at least the cutoff from a particle and its periodic images, the particle keeps its neighbors, its LocalDensity, its Hexatic order and its Steinhardt order (if that is averaged over neighbors: at a distance of at least twice the cutoff).", "quantifier": "all periodic boxes, points, ranges below half the box, bins, frames, engines and forms of the neighbors, changes of particles out of range, histories of calls, schedules", "why_tests_cant": "A test compares two cutoffs, or moves one particle of one system; that nothing out of range enters any result (through a shared normalization, a wrong image, a cell or tree node that is cut off) is a claim about all systems and all changes.", "anchors": ["freud/locality.py NeighborQuery.query", "freud/locality.py NeighborList.filter_r", "freud/density/RDF.cc RDF::reduce", "freud/density/CorrelationFunction.cc CorrelationFunction::reduce", "freud/density/LocalDensity.cc LocalDensity::compute", "freud/cluster/Cluster.cc Cluster::compute", "freud/order/HexaticTranslational.cc Hexatic::compute", "freud/order/Steinhardt.cc Steinhardt::compute"]}
{"id": "C111", "title": "Equivalent descriptions of the orientations give the same results", "statement": "Replacing a quaternion by the one with all four signs changed, for any of the particles, the query points or the equivalent orientations, changes nothing in the results of PMFTXYZ, BondOrder (all modes), LocalBondProjection, LocalDescriptors and Cubatic; nor does the order of the equivalent orientations of PMFTXYZ. Adding full turns to the angles of particles or query points changes nothing in the results of PMFTXY, PMFTXYT and PMFTR12. Replacing the quaternion of the view of a DiffractionPattern in any call of any history changes neither the pattern nor the k-values and k-vectors.", "quantifier": "all periodic systems, sequences of frames, sets of orientations and choices of which of them to replace, histogram sizes, neighbor sources, thread schedules and histories of calls", "why_tests_cant": "A test compares some descriptions of some orientations; the claim is about every choice of signs and turns in every system.", "anchors": ["freud/pmft/PMFTXY.cc:accumulate", "freud/pmft/PMFTXYT.cc:accumulate", "freud/pmft/PMFTR12.cc:accumulate", "freud/pmft/PMFTXYZ.cc:accumulate", "freud/environment/BondOrder.cc:accumulate", "freud/environment/LocalBondProjection.cc:compute", "freud/environment/LocalDescriptors.cc:compute", "freud/order/Cubatic.cc:compute", "freud/diffraction.py:DiffractionPattern.compute", "freud/util/VectorMath.h:rotate"]}
{"id": "C112", "title": "Results are linear in the values and see only the ratios of the weights", "statement": "CorrelationFunction is linear in query_values and linear, with the conjugate factors, in values, after any history of calls; GaussianDensity is linear in the values of the points, voxel by voxel. With weights, Hexatic and Steinhardt (q_l and w_l, plain and averaged, of particles and of the system) do not change when the weights of the bonds of a particle are all multiplied by a number other than zero, which may be another one for each particle; a diffraction pattern does not change when all weights are multiplied by such a number, and equal weights are the same as none.", "quantifier": "all systems, histories of calls, values, factors, weights, thread schedules", "why_tests_cant": "Tests use some values and weights; linearity is a relation between all of them, for every bin and every history.", "anchors": ["freud/density/CorrelationFunction.cc:accumulate,reduce", "freud/density/GaussianDensity.cc:compute", "freud/order/HexaticTranslational.cc:computeGeneral", "freud/order/Steinhardt.cc:baseCompute", "freud/diffraction.py:DiffractionPattern.compute"]}
{"id": "C113", "title": "Coarse bins hold what the fine bins in them hold", "statement": "If the bins of a grid are cut into equal parts (a multiple of the number of bins, the same range), then for the same frames each value of the coarse grid is the mean of the values of its parts, weighted with the sizes of the parts: PMFTXY, PMFTXYT and PMFTXYZ with equal weights, PMFTR12 with the areas of the rings, RDF with the volumes of the shells, BondOrder with the solid angles, CorrelationFunction with the numbers of bonds, StaticStructureFactorDirect with the numbers of wave vectors. The cumulative number of neighbors n_r of a coarse bin is that of its last part. The two objects may have been used in different ways (thread schedules, reads in between, frames before a reset) as long as the frames that count are the same.", "quantifier": "all ranges, numbers of bins and parts, histories of calls, frames, thread schedules", "why_tests_cant": "Tests compute one grid for one system; this relates all pairs of grids and rests on bins being half-open with common edges and on the normalization of every bin.", "anchors": ["freud/util/Histogram.h:RegularAxis.bin", "freud/density/RDF.cc:reduce", "freud/density/CorrelationFunction.cc:reduce", "freud/pmft/PMFTXY.cc:reduce", "freud/pmft/PMFTXYT.cc:reduce", "freud/pmft/PMFTXYZ.cc:reduce", "freud/pmft/PMFTR12.cc:reduce", "freud/environment/BondOrder.cc:reduce", "freud/diffraction/StaticStructureFactorDirect.cc:reduce"]}
{"id": "C114", "title": "Larger radii, more neighbors and stricter thresholds change results in one direction only", "statement": "Two nearest-neighbor queries of the same point with any number of neighbors, largest distance, first radius and scale agree as far as both go: their m-th neighbors are equally far away, and are the same particle unless there is a tie; so the k nearest neighbors are the first k of the k+1 nearest. A larger r_max of SphereVoxelization never unmarks a voxel. A larger r_max of LocalDensity never lowers a number of neighbors. Larger q_threshold and solid_threshold of SolidLiquid never add connections or solid-like bonds, and divide clusters but never join them, while ql_ij is unchanged. A larger threshold of environment matching does not lose a match (false as stated: a match can be lost; true if no vector has two possible partners).", "quantifier": "all boxes, points, neighbor lists, pairs of parameter values, histories of calls and thread schedules", "why_tests_cant": "A test compares two values of a parameter on one system; the claim is for all pairs of values and all systems.", "anchors": ["freud/locality/AABBQuery.cc:AABBQueryIterator::next", "freud/density/SphereVoxelization.cc:compute", "freud/density/LocalDensity.cc:compute", "freud/order/SolidLiquid.cc:compute", "freud/environment/MatchEnv.cc:isSimilar"]}
{"id": "C115", "title": "A periodic buffer holds the neighbors across the faces", "statement": "PeriodicBuffer computed with a buffer distance r and the input points included holds every periodic image of every point that is less than r from some place in the box; so the neighbors that a query with r_max = r finds in the periodic system are the points of the buffer in that range, seen without periodicity, with the same vectors and the same particle indices (buffer_ids). (False as stated for tilted boxes: the buffer is measured along the edges, and the faces move less than r. True if the faces move at least r, in particular for boxes without tilt.) A number as buffer is the same as that number three times; sequences of another length than three raise.", "quantifier": "all boxes (2D, 3D, tilted), points, query points in the box, buffer distances, neighbor sources", "why_tests_cant": "Tests count the points of a buffer of one box; the claim is about every image near every place, and fails only near the faces of tilted boxes.", "anchors": ["freud/locality.py:PeriodicBuffer.compute", "freud/locality/PeriodicBuffer.cc:PeriodicBuffer::compute", "freud/box/Box.h:Box::getNearestPlaneDistance"]}
{"id": "C116", "title": "Crystals have Bragg peaks", "statement": "StaticStructureFactorDirect of a crystal made by UnitCell.generate_system (any cell, any numbers of replicas n, any scale): at the wave vector with integer coordinates h with respect to the box, the structure factor is zero unless every n_i divides h_i, and then it is the number of cells times the structure factor |sum_j exp(2 pi i q.f_j)|^2 / N_basis of the unit cell at q = h / n. More generally, a periodic system described by a cell that holds m cells has m times the structure factor at the wave vectors of the smaller cell, and zero at the others. So bins without a reflection hold zero, and the known extinction rules hold: bcc needs an even sum of indices, fcc needs indices all even or all odd, hex and centered rectangular cells an even sum of the first two; hcp gives 2, 1/2, 3/2 or 0 and graphene 4, 1 or 0 per cell; sc, square, rectangular and oblique cells have all reflections.", "quantifier": "all unit cells, numbers of replicas, scales, wave vectors, sampled sets of wave vectors, bins and schedules", "why_tests_cant": "Tests look at the peaks of one crystal; the claim gives the value at every wave vector of every crystal, including the exact zeros between the peaks.", "anchors": ["freud/diffraction/StaticStructureFactorDirect.cc:StaticStructureFactorDirect::accumulate", "freud/data.py:UnitCell.generate_system", "freud/data.py:UnitCell.fcc", "freud/data.py:UnitCell.bcc", "freud/data.py:UnitCell.hcp"]}
{"id": "C117", "title": "The RDF of a crystal has its shell at the right place with the right weight", "statement": "For any number of frames of a crystal made by UnitCell.generate_system whose particles have z nearest neighbors at distance d and no others nearer than d2 (as C98 shows for the named cells), RDF with r_max between d and d2 gives n_r = 0 in the bins that end before the shell and n_r = z in the bins after it; rdf is zero except in the bin that holds d, where it is z over the expected number of particles in the shell of that bin (density of the normalization mode times the volume of the shell), whatever the size and scale of the crystal, the engine, the form of the neighbors and the thread schedule.", "quantifier": "all crystals with a first shell, sizes, scales, bins, ranges, numbers of frames, normalization modes, engines and schedules", "why_tests_cant": "Tests compare some bins of one crystal with stored numbers; the claim gives all bins of all sizes and resolutions.", "anchors": ["freud/density/RDF.cc:RDF::reduce", "freud/density/RDF.cc:RDF::accumulate", "freud/data.py:UnitCell.generate_system"]}
{"id": "C118", "title": "Radii in FilterRAD act as documented", "statement": "FilterRAD.compute raises if points_radii or query_points_radii does not hold one finite positive number for each particle, and uses radii of 1 if none are given. Multiplying all points_radii by a positive number changes nothing, so equal radii act as no radii; query_points_radii have no effect. In open mode, making one particle larger never removes a bond to it and never adds a bond to another particle. (In closed mode it can, since the search then goes on beyond it.)", "quantifier": "all boxes, points, query points, unfiltered neighbor lists, radii, schedules of the parallel loop and orders of equal bonds", "why_tests_cant": "Tests use a few configurations and radii. Invariance under every common factor and monotonicity in every radius, for every list and every order of ties, cannot be sampled.", "anchors": ["freud/locality.py: FilterRAD.compute", "freud/locality/FilterRAD.cc: FilterRAD::compute"]}
{"id": "C119", "title": "The shape tensors of a cluster are consistent with one another", "statement": "For every cluster of ClusterProperties: inertia tensors and gyrations are symmetric; the moment of inertia about any axis is the sum over exactly the points of the cluster of mass times squared distance from that axis (through the reported center of mass), is not negative for masses that are not negative, and is at most the sum of those about two perpendicular axes; the gyration tensor along any axis is the mean squared component of the displacements from the reported center and is not negative. The trace of the inertia tensor is twice the mass times the squared radius of gyration. With equal masses the center of mass is the center and the squared radius of gyration is the trace of the gyration tensor. A cluster of one point in a periodic box has its center there and a zero gyration tensor. Masses in another unit change masses and inertia tensors by that factor and nothing else.", "quantifier": "all boxes, points, labels, masses, clusters and axes", "why_tests_cant": "Tests compare with stored numbers for a few clusters; these identities link all outputs for every configuration, axis and mass.", "anchors": ["freud/cluster/ClusterProperties.cc: ClusterProperties::compute", "freud/cluster.py: ClusterProperties.radii_of_gyration"]}
{"id": "C120", "title": "The MSD depends only on how each particle moves relative to itself", "statement": "After any readable history of MSD.compute calls: replacing the (unwrapped) trajectory of each particle by its image under a translation, rotation or reflection (another one for each particle), with other boxes or another split into batches, changes neither particle_msd nor msd in either mode; playing any of the trajectories backwards changes neither in window mode; permuting the particles permutes the columns of particle_msd and leaves msd as it is; particles of constant velocity v give exactly m^2 |v|^2 at m frames in both modes; the last entry is the squared distance of last and first frame in both modes; a particle that moves at most d per frame has an MSD of at most (m d)^2.", "quantifier": "All boxes, modes, histories of compute calls, numbers of frames and particles, trajectories, images and distance-preserving maps.", "why_tests_cant": "The window mode goes through FFTs and a recursively subtracted sum, and symmetries relate pairs of arbitrarily long trajectories; a test sees a few of them.", "anchors": ["freud/msd.py:MSD.compute", "freud/msd.py:MSD.msd", "freud/msd.py:MSD.particle_msd", "freud/msd.py:_autocorrelation"]}
{"id": "C121", "title": "Environment matching recognises perfect crystals", "statement": "In every sc, bcc, fcc, square or hexagonal crystal made by UnitCell.generate_system, of any size and scale and without noise, with the nearest neighbors (a ball query with a cutoff between the first and the second shell) as neighbors and as environments, EnvironmentCluster without registration and with any threshold up to the distance of nearest neighbors finds one cluster, number 0; it reports for all particles the same environment, vector by vector, which is the known star of the crystal in some order, and the same as environment of the cluster; EnvironmentMotifMatch with this star as motif, in any order, says that every particle matches, and with a motif that has another number of vectors that no particle matches. More generally this holds for all points that have the same environment up to order, if its vectors are at least the threshold apart and chains of bonds join all points. Without registration an environment is only reordered, never turned.", "quantifier": "all crystal sizes and scales, all cutoffs between the shells, all neighbor lists that a query may return, all thresholds up to the nearest neighbor distance, all orders of the motif; in the general form all point counts, bonds and environments", "why_tests_cant": "Tests use a few bcc and fcc crystals with fixed sizes and thresholds; that the greedy matching of vectors never depends on the order in which the bonds were found, and that merging along the bonds never stops early, has to hold for every size and every order.", "anchors": ["freud/environment.py: EnvironmentCluster.compute", "freud/environment.py: EnvironmentMotifMatch.compute", "freud/environment/MatchEnv.cc: EnvironmentCluster::compute", "freud/environment/MatchEnv.cc: EnvironmentMotifMatch::compute", "freud/environment/MatchEnv.cc: isSimilar", "freud/data.py: UnitCell.generate_system"]}
{"id": "C122", "title": "The Debye structure factor is the direct one averaged over all directions", "statement": "For every system that is smaller than half of its box (the coordinates of any point and any query point differ by less than half of the distance between opposite faces), the value that StaticStructureFactorDebye reports at k is the mean, over all directions n of the plane for a two-dimensional box and of space otherwise, of the documented formula of StaticStructureFactorDirect at the wave vector k n; after several calls with reset=False it is the mean of these over the calls. Without query points the value is therefore never negative. In any system it is this mean with the minimum image separations in place of the coordinate differences, and then it can be negative: a layer of nine particles that fills its box gives a negative value.", "quantifier": "all box shapes and dimensions, all point and query point sets, all k values, all histories of calls and schedules", "why_tests_cant": "Tests compare the two classes on random systems with tolerances, as the direct class only samples some wave vectors; the exact identity is one of integrals over all directions for every configuration.", "anchors": ["freud/diffraction.py: StaticStructureFactorDebye", "freud/diffraction.py: StaticStructureFactorDirect", "freud/diffraction/StaticStructureFactorDebye.cc: StaticStructureFactorDebye::accumulate", "freud/diffraction/StaticStructureFactorDirect.cc: StaticStructureFactorDirect::compute_S_k"]}
{"id": "C123", "title": "Pruned wave vectors: how many and which", "statement": "StaticStructureFactorDirect with num_sampled_k_points = N > 0 in a box without tilt uses all wave vectors exactly if N is above the number of wave vectors that the sampled part of reciprocal space (a quarter of the disk in two dimensions, an eighth of the ball in three, up to k_max) holds on average. Otherwise the pruning distance that the code computes (a closed formula in 2D, Cardano's formula with complex roots in 3D) lies between 0 and k_max and is the one for which keeping all vectors up to it and the others with a probability that makes the radial density uniform keeps N vectors on average. In any box, a vector is kept with exactly this probability if the random number is uniform; whatever the random numbers, the used vectors are a part of those that are used without pruning and contain all of these up to the pruning distance; and the mean number of used vectors is the sum of the probabilities. With k_min > 0 fewer than N are kept on average, as the distance does not depend on k_min.", "quantifier": "all boxes, all k_max, k_min and N, all random numbers, all probability spaces that carry uniform random numbers", "why_tests_cant": "Tests count the sampled vectors of a few boxes with a tolerance; that Cardano's formula takes the right one of three roots for every N, and the distribution over all random numbers, cannot be sampled.", "anchors": ["freud/diffraction.py: StaticStructureFactorDirect.__init__", "freud/diffraction/StaticStructureFactorDirect.cc: get_prune_distance2D", "freud/diffraction/StaticStructureFactorDirect.cc: get_prune_distance3D", "freud/diffraction/StaticStructureFactorDirect.cc: should_keep_k_vector3D", "freud/diffraction/StaticStructureFactorDirect.cc: StaticStructureFactorDirect::reciprocal_isotropic"]}
{"id": "C124", "title": "Nearest-neighbor queries do not depend on the engine and the description of the system", "statement": "If for each query point exactly k points have a periodic image nearer than some radius below half of the distance of opposite faces (and not nearer than r_min), then a query with num_neighbors=k returns exactly these bonds, each once and the shortest first, from a (box, points) pair, an AABBQuery and a LinkCell of any cell width, in every box, however tilted. A compute class given these query arguments, or a neighbor list made from them, therefore sees the bonds a ball query with that radius would give; the neighbor list is equal to the list of the ball query when one radius serves all query points. The bonds do not change, except for the obvious relabelling, turning or scaling, when the same system is described by another unit cell, turned, reflected, moved, renumbered, or in another unit of length. Such queries are accepted by every kind of system but CellQuery, which raises an error. In particular, in every crystal made from the named unit cells (sc 6, bcc 8, fcc and hcp 12, square 4, hex 6, graphene 3) the list of as many nearest neighbors as the coordination number is the list of the first shell.", "quantifier": "all boxes periodic in their dimensions, points and query points in the box, numbers of neighbors, r_min, exclude_ii, values of scale up to 2, cell widths, thread schedules, outcomes of unstable sorts", "why_tests_cant": "The two searches grow in unrelated ways (a radius multiplied by scale against shells of cells) and stop under different conditions; agreement must hold for every configuration and box shape, not the sampled ones.", "anchors": ["freud/locality/AABBQuery.cc: AABBQueryIterator::next", "freud/locality/LinkCell.cc: LinkCellQueryIterator::next", "freud/locality/NeighborQuery.h: validateQueryArgs, toNeighborList", "freud/locality/CellQuery.h: validateQueryArgs", "freud/locality/RawPoints.h: query", "freud/data.py: UnitCell"]}
{"id": "C125", "title": "The neighbor filters find the coordination shells of crystals", "statement": "In every crystal made from the named unit cells with UnitCell.generate_system, at any scale and size, FilterSANN keeps exactly these neighbors of every particle: the 12 nearest in fcc and hcp, the 8 + 6 nearest in bcc, 6 + 12 in sc, 4 + 4 in square, 6 in hex, 3 + 6 in graphene. FilterRAD, open or closed, with equal radii, keeps exactly the 12 nearest in fcc and hcp, 8 + 6 in bcc, 6 in sc, 4 in square, 6 in hex and 3 in graphene. Each neighbor appears once and with its minimum-image distance, no error is raised whether incomplete shells are allowed or not, and the result is the same whether all pairs (the default) or a ball query reaching the next shell was filtered, from any kind of system.", "quantifier": "all sizes and scales of the crystals whose box is more than twice as wide as the next shell is far, all kinds of systems and neighbor arguments of that kind, thread schedules, outcomes of unstable sorts, both values of allow_incomplete_shell and of terminate_after_blocked", "why_tests_cant": "Distances within a shell are tied, so the filters see the neighbors in an order that an unstable sort chooses, and RAD compares every pair of them; tests look at a few crystal sizes in one order.", "anchors": ["freud/locality/FilterSANN.cc: FilterSANN::compute", "freud/locality/FilterRAD.cc: FilterRAD::compute", "freud/locality.py: FilterSANN, FilterRAD", "freud/data.py: UnitCell"]}
{"id": "C126", "title": "Steinhardt's q_l reaches 1 only for bonds along one line", "statement": "For l >= 1 and positive weights, freud.order.Steinhardt gives a particle q_l = 1 exactly if it has a neighbor and all its bonds point in one direction (for even l: lie along one line). The averaged value is 1 exactly if this holds for all bonds of the particle and of its neighbors together and each of these has a neighbor, and `order` is 1 exactly if it holds for all bonds of the system and every particle has a neighbor. In every other case the values are below 1 or not numbers.", "quantifier": "all degrees l >= 1, all boxes, point sets and neighbor lists with positive weights, both settings of `average` and `weighted`, all earlier computes and all schedules of the threads", "why_tests_cant": "Tests compare q_l of a few crystals with tabulated numbers; that no arrangement other than a line reaches the largest value is a statement about all arrangements of any number of bonds and all degrees.", "anchors": ["freud/order/Steinhardt.cc: Steinhardt::baseCompute, Steinhardt::computeAve, Steinhardt::normalizeSystem", "freud/order.py: Steinhardt.compute, Steinhardt.ql, Steinhardt.order"]}
{"id": "C127", "title": "When a bond of SolidLiquid has the value 1 or -1", "statement": "With normalize_q, freud.order.SolidLiquid gives a bond the value 1 exactly if the angular patterns of degree l of the bonds of its two particles exist, do not vanish and agree up to a positive factor in every direction, and the value -1 exactly if they are opposite up to a positive factor.", "quantifier": "all degrees l, all thresholds >= 0, all boxes, point sets and neighbor lists, all earlier computes and all schedules of the threads", "why_tests_cant": "Tests check that the bonds of a perfect crystal are solid-like; that the value 1 always means the same angular pattern is a statement about all pairs of environments.", "anchors": ["freud/order/SolidLiquid.cc: SolidLiquid::compute", "freud/order.py: SolidLiquid.compute, SolidLiquid.ql_ij"]}
{"id": "C128", "title": "Voronoi volumes fill the box and ridges are mutual", "statement": "For points of which no two coincide modulo the periodic lattice, the volumes that freud.locality.Voronoi reports are positive and add up to the volume of the box (in 2D to its area). The neighbor list is symmetric: for each bond from i to j there is exactly one bond from j to i with the opposite vector, the same distance and the same weight, and no bond occurs twice. The periodic images with which a particle shares ridges are its images under the lattice of the box, tilted or not; in 2D the ridges towards the images above and below are the top and the bottom of the slab and nothing else.", "quantifier": "all boxes of positive lengths, tilted or not, 2D and 3D, all non-empty point sets without coincident points (for the volumes), all earlier states of the object, given that the external library returns the cells of the periodic diagram of the container it was given", "why_tests_cant": "Tests sum the volumes of a few random systems; that the container is set up such that the cells always tile the box, and that no ridge is lost or counted differently from its two sides, concerns every box and point set.", "anchors": ["freud/locality/Voronoi.cc: Voronoi::compute", "freud/box/Box.h: Box::getLatticeVector, Box::getVolume", "freud/locality.py: Voronoi.volumes, Voronoi.nlist"]}
{"id": "C129", "title": "Voronoi diagrams do not depend on how a periodic system is described", "statement": "If a periodic system is given to freud.locality.Voronoi by another unit cell of its lattice, with other numbers of the particles, another origin and other periodic images, or turned or reflected, then the neighbor list has the same bonds (with the turned vectors) with the same distances and weights, and every particle has the same volume.", "quantifier": "all fully periodic boxes in 2D and 3D, all point sets, all rotations, reflections, renumberings, origins and choices of images, all earlier states of the two objects, given that the external library returns the cells of the periodic diagram of the container it was given", "why_tests_cant": "Tests compare single descriptions of a few lattices with known values; that every description of the same system gives the same result is a statement about all pairs of descriptions.", "anchors": ["freud/locality/Voronoi.cc: Voronoi::compute", "freud/locality.py: Voronoi"]}
{"id": "C130", "title": "The closest particles are Voronoi neighbors", "statement": "If no other point or periodic image is inside or on the sphere that has the connection from point i to a certain image of point j as its diameter, then the neighbor list of freud.locality.Voronoi has a bond from i to j along the vector to that image, with its distance. In particular the closest images are neighbors: if no other point or image is closer to i than that image of j, there is such a bond, and no bond of i is shorter. Every point has a closest image, so every point has a Voronoi neighbor.", "quantifier": "all boxes with non-zero lengths, tilted or not, 2D and 3D, all point sets, all points, all earlier states of the object, given that the external library returns the cells of the periodic diagram of the container it was given", "why_tests_cant": "Tests look at the neighbor counts of a few lattices and random systems; that the nearest neighbor is never missing, however flat or tilted the box and however close the ties, concerns every box and point set.", "anchors": ["freud/locality/Voronoi.cc: Voronoi::compute", "freud/locality.py: Voronoi.nlist"]}
{"id": "C131", "title": "Voronoi diagrams of lattices and crystals", "statement": "If all points of a system see the other points and images at the same vectors (a Bravais lattice), then freud.locality.Voronoi gives two particles a bond along a vector exactly if all other points and images are outside the sphere that has the vector as its diameter, and all volumes are equal parts of the volume of the box. So in every crystal generated from UnitCell.sc, .fcc, .bcc, .square or .hex, of any size and scale, every particle has 6, 12, 14, 4 or 6 Voronoi neighbors respectively, at the known vectors times the scale, each once.", "quantifier": "all boxes, 2D and 3D, all point sets that form a lattice; all numbers of replicas and scales for which generate_system returns, all earlier states of the Voronoi object, given that the external library returns the cells of the periodic diagram of the container it was given", "why_tests_cant": "Tests look at a few sizes of a few lattices, where rounding decides about degenerate facets (in fcc and sc the cells of second neighbors touch in a point or an edge); that exactly these neighbors belong to the diagram at every size and scale is a statement about all crystals.", "anchors": ["freud/locality/Voronoi.cc: Voronoi::compute", "freud/locality.py: Voronoi.nlist, Voronoi.volumes", "freud/data.py: UnitCell.generate_system, UnitCell.sc, UnitCell.fcc, UnitCell.bcc, UnitCell.square, UnitCell.hex"]}
{"id": "C132", "title": "Voronoi diagrams in another unit of length", "statement": "If box and points are multiplied by a positive number c, freud.locality.Voronoi gives the same bonds, with vectors and distances multiplied by c, and with weights multiplied by c^2 in 3D (where they are areas) and by c in 2D (where they are lengths); every volume is multiplied by c^3 in 3D and by c^2 in 2D. In particular the height 1 of the slab that is used for 2D systems, which is not multiplied, has no influence.", "quantifier": "all positive numbers, all boxes with non-zero lengths, tilted or not, 2D and 3D, all point sets, all earlier states of the two objects, given that the external library returns the cells of the periodic diagram of the container it was given", "why_tests_cant": "Tests use systems with lengths of the order of 1. That in 2D the artificial slab of height 1 never shows in the result, for boxes much smaller or larger than it, is a statement about all scales.", "anchors": ["freud/locality/Voronoi.cc: Voronoi::compute", "freud/locality.py: Voronoi.nlist, Voronoi.volumes"]}
{"id": "C133", "title": "Voronoi diagrams have the symmetries of lattices; coordination numbers of crystals", "statement": "If a rotation or reflection takes the lattice of a system to itself, then bonds of Voronoi.compute's neighbor list along vectors that it takes to one another have the same weight (area, in 2D length, of the ridge), also if they start at different particles. Consequently in the crystals that UnitCell.sc, square, fcc and hex generate, of any size and scale, all ridges are equal, in bcc those to the 8 nearest and those to the 6 next neighbors are; and all the numbers that ContinuousCoordination reports (all powers, logarithm and exponential) are exactly 6 in sc, 4 in square, 12 in fcc and 6 in hex, for each particle and whatever the threads do.", "quantifier": "all lattices and their symmetries; all sizes and scales of the crystals; all exponents; all orders in which threads handle particles; all sort routines; all earlier states of the objects", "why_tests_cant": "A test checks one crystal of one size with a tolerance; equality of all ridges and the exact value of the coordination number for every exponent and size need the symmetry argument.", "anchors": ["freud/locality/Voronoi.cc: Voronoi::compute", "freud/order/ContinuousCoordination.cc: ContinuousCoordination::compute", "freud/data.py: UnitCell.sc, UnitCell.square, UnitCell.fcc, UnitCell.bcc, UnitCell.hex, UnitCell.generate_system"]}
{"id": "C134", "title": "Order parameters of crystals with Voronoi neighbors", "statement": "With the neighbor list of Voronoi.compute, in the crystals that UnitCell.sc and fcc generate, of any size (with a box more than twice as large as the nearest distance) and scale, Steinhardt gives every particle and the whole system exactly q4 = sqrt(7/12), q6 = sqrt(1/8) in sc, q4 = sqrt(7/192), q6 = sqrt(169/512) in fcc and 0 for all odd l, with or without averaging over neighbors and with or without weighting by the areas of the facets; SolidLiquid (l = 4 and 6) gives the value 1 to all bonds, so that for every threshold below 1 each particle has all of its 6 (12) bonds; and Hexatic of any k gives 1 if 4 (6) divides k and 0 otherwise to every particle of the crystals of UnitCell.square (hex), weighted or not.", "quantifier": "all sizes and scales of the crystals; all l that are odd, all k; all settings average, weighted and norm; all earlier calls; all orders in which threads handle particles; all sort routines; all measures of facets that do not change under rigid motions", "why_tests_cant": "A test computes one crystal of one size with a tolerance. That weighting by facets does not change the value for any size, and that the nearest image that the order parameters use is the image that the Voronoi diagram used, are statements about all of them.", "anchors": ["freud/locality/Voronoi.cc: Voronoi::compute", "freud/order/Steinhardt.cc: Steinhardt::compute", "freud/order/SolidLiquid.cc: SolidLiquid::compute", "freud/order/HexaticTranslational.cc: Hexatic::compute", "freud/data.py: UnitCell.sc, UnitCell.fcc, UnitCell.square, UnitCell.hex, UnitCell.generate_system"]}
{"id": "C135", "title": "Voronoi diagrams of a larger cell of the same periodic system", "statement": "If a periodic system is described by a larger cell (e.g. UnitCell.generate_system with more replicas), with any origin, numbering and periodic images, then Voronoi.compute gives each particle the volume of the particle that it is an image of, and in the neighbor list each particle has the same neighbors at the same distances, with the same vectors and weights, also when a particle has several images of the same particle, or images of itself, as neighbors. Consequently ContinuousCoordination gives it the same numbers.", "quantifier": "all boxes and all larger cells of their lattices (tilted ones too), in 2D and 3D; all points; all translation invariant measures of facets; all orders of threads, sort routines and earlier states", "why_tests_cant": "A test compares one system with one supercell; that the periodic container is complete for every shape of cell and every particle, also in cells so small that particles are their own neighbors, is a statement about all of them.", "anchors": ["freud/locality/Voronoi.cc: Voronoi::compute", "freud/order/ContinuousCoordination.cc: ContinuousCoordination::compute", "freud/data.py: UnitCell.generate_system"]}
{"id": "C136", "title": "Order parameters of the bcc crystal with its 14 Voronoi neighbors", "statement": "In every bcc crystal generated from UnitCell.bcc, of any number of cells and any scale, in a box more than twice as large as the lattice constant, freud.order.Steinhardt without weights, computed with the neighbor list of freud.locality.Voronoi, gives q_4 = sqrt(1/756) and q_6 = sqrt(169/648) and q_l = 0 for all odd l, for every particle and for the system, with or without averaging. With weights, all 8 closer neighbors have one weight near and all 6 farther ones one weight far, and q_4 = sqrt(7/12) |6 far - 16/3 near| / (8 near + 6 far), q_6 = sqrt(1/8) (128/9 near + 6 far) / (8 near + 6 far), and q_l = 0 for all odd l. freud.order.SolidLiquid with l = 4 or l = 6 finds all bond values equal to 1 and 14 solid-like bonds per particle for every threshold below 1.", "quantifier": "all numbers of cells and scales, all orders in which the threads run, all earlier calls of compute, all odd l, all thresholds from 0 to below 1", "why_tests_cant": "A test computes the order parameters of a few sizes in floating point with a tolerance; it cannot exclude that they depend on the size, the scale, the earlier calls or the order of the threads.", "anchors": ["freud/locality.py: Voronoi.compute", "freud/locality/Voronoi.cc: Voronoi::compute", "freud/order/Steinhardt.cc: Steinhardt::compute", "freud/order/SolidLiquid.cc: SolidLiquid::compute", "freud/data.py: UnitCell.bcc, UnitCell.generate_system"]}
