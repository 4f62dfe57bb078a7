# Formal model of glotzerlab/freud in Lean 4

Sources: `/repo` at the pinned commit (paths below are relative to it). Model and
proofs: `/verif/lean/Verif`. Property list: `/verif/properties.jsonl`. Status per
property: `/verif/MANIFEST.json`. Mutation log: `/verif/seeded/LOG.jsonl`.

## 1. Trusted base

* Lean 4.33.0's kernel, and the correctness of Mathlib's definitions that occur in
  theorem statements (`ℤ`, `ℚ`, `ℝ`, `Int.floor`, `List.Perm`, `Real.sqrt`, ...).
* Axioms: only `propext`, `Classical.choice`, `Quot.sound`. No axiom is added, there is
  no `sorry`, `admit`, `native_decide` or `bv_decide`. `AXIOMS.md` lists the output of
  `#print axioms` for every theorem of the manifest.
* The reading of the C++/Python source by the author. The code is never run. Each
  definition cites the file and lines it models.

## 2. General modelling decisions

* **Floating point** is replaced by exact arithmetic: a linearly ordered field with
  floor (`K`), instantiated at `ℚ` for concrete witnesses and at `ℝ` where square roots
  or transcendental functions occur, except in C90-C93. Overflow to infinity and NaN are not
  modelled. In C90-C93 the functions that decide about bins, images, cells and neighbors are
  modelled a second time (`Freud.Fl`) with every operation rounded to the nearest rational
  number of `p` binary digits, ties to even, for every `p`; simplified: no bound on exponents
  (no overflow, no subnormal numbers), no fused multiply-add, no extended precision of
  intermediate results, and `double` constants and `float` variables of one expression have
  the same precision. A C++ cast `(int) x` is truncation towards zero, `fmod` is the truncating
  remainder.
* **Machine integers** are `ℕ`/`ℤ` unless the property is about wrap-around, in which
  case the model computes modulo `2^32` explicitly.
* **Exceptions** are values: `Except` where the kind of error matters (Python guards), `none`
  of an `Option` elsewhere. Reads outside an array, dereferencing `end()`, and other
  undefined behaviour are also `none`; the theorems state when it occurs.
* **Parallel loops** (`util::forLoopWrapper`, TBB): a schedule is an arbitrary list of
  blocks (half-open ranges) covering the index range, in arbitrary order, each assigned
  to an arbitrary thread. For the lock-free disjoint set, where threads really share
  memory, the model is a small-step machine over atomic loads and compare-and-swaps and
  the theorems quantify over all interleavings. Sequentially consistent memory is
  assumed (the C++ code uses the default `seq_cst` atomics).
* **Arrays** are lists or functions from indices; shared pointers are values. Aliasing of
  NumPy views is not modelled, except where a property is about copies.
* **External code** is a parameter of the model, with the assumption stated as a `Spec`
  predicate in the theorem. In particular: the Eigen eigen solver (C43), the singular value
  decomposition and the determinant (C68), the registration fit in the environment classes
  (C48-C49, C69-C71: a proper rotation and a one-to-one matching), `std::sort` (any sorted
  permutation), `std::unordered_set` order, random picks of registration and of the wave
  vector sampling (arbitrary values), the float-to-integer cast of values out of range
  (arbitrary). NumPy's FFT in MSD is the exact discrete Fourier transform. The Bessel
  function of the Debye structure factor in 2D is its integral representation. The
  spherical harmonics of the library fsph (C76, C77) are any functions that satisfy the
  addition theorem and the rule for `-m` (`Spec.Harmonics`); for every degree such functions
  are constructed and the addition theorem is proved (`C101_harmonics`, `C101_fsph`).
  Steinhardt with one `l` is `Model/Steinhardt.lean`, with several `Model/SteinhardtSeveral.lean`
  (C107). The literals of the Wigner table are taken as exact decimals.
* **Constants** `pi`, `sqrt`, `arctan2`, `cos`, `sin` are Mathlib's, or parameters with the
  properties used stated as hypotheses.

## 3. Layout

* `Verif/Model/*.lean` -- the model, definition by definition, with citations.
* `Verif/Spec/*.lean` -- small specifications that do not use the model's helpers.
* `Verif/Lemmas/*.lean` -- helper lemmas.
* `Verif/Props/*.lean` -- the property theorems, each followed by an `example` showing
  that its hypotheses are met by a concrete case. Names start with the property id
  (`C01_...`). A theorem that covers part of a property ends in `_partial`; a theorem that
  shows the code violates the property ends in `_counterexample`.

## 4. What is modelled and how it is proved

| id | modelled | proof |
|----|----------|-------|
| C01 | `Box::wrap`, `makeFractional`, `makeAbsolute`, `modulusPositive` over `K` | algebra with floor; integer shift = minus floor of the fractional coordinate |
| C02 | as C01, `unwrap` | fractional coordinates shift by integers, `Int.fract` is periodic |
| C03 | as C01 | `field_simp; ring` |
| C04 | `getImage`, `unwrap`, `contains` | false on lower faces: counterexample; partial: holds iff no fractional coordinate is an integer `<= 0` |
| C05 | `computeDistance` (squared, and root in `ℝ`) | translation invariance in general; symmetry for orthorhombic boxes or off the faces, counterexample for tilted boxes on a face |
| C06 | `getNearestPlaneDistance` over `ℝ` | Cauchy-Schwarz against the plane normals; orthorhombic: per-axis minimum |
| C07 | `to_matrix`, `from_matrix`, lengths and angles over `ℝ` | algebra with `Real.sqrt`, `arccos` |
| C08 | Python `Box` with flags, `from_box`, `__mul__` | counterexample; partial for fully periodic boxes |
| C09 | `ManagedArray` indexing | induction over the shape; off-by-one in `getIndex` gives a counterexample for the checked accessor |
| C10 | `RegularAxis` over `K` | floor algebra |
| C11 | `Histogram` | induction over samples, using C09, C10 |
| C12 | thread-local accumulation with arbitrary schedules | commutative-monoid folds over permutations |
| C13 | `BondHistogramCompute` state machine | refinement to "list of frames since reset" |
| C14 | `NeighborList` array constructor | case analysis on the guard loop, induction |
| C15 | `updateSegmentCounts`, bisection | loop invariants by strong induction |
| C16 | `filter`, `filter_r` | list induction |
| C17 | all-pairs constructor | index arithmetic, bijection |
| C18 | mutable list state with cache | invariant over operation histories |
| C19 | `sort` with the two comparators | permutation + total order on bonds gives uniqueness |
| C20 | `toNeighborList` | schedule model of C12 + C19 |
| C21 | AABB tree build and stackless traversal | structural induction over the tree, skip counts |
| C22 | ball iterator, image vectors | C06 + C21 |
| C23 | nearest iterator | counterexamples; partial under a sufficient radius condition |
| C24 | `IteratorCellShell` | state-machine induction |
| C25 | LinkCell cell list and ball iterator | C24 + geometry |
| C26 | LinkCell nearest iterator | counterexample for elongated boxes; partial |
| C27 | CellQuery grid with ghosts | counterexample for interleaving; completeness by geometry |
| C28 | `validateQueryArgs` and friends | case analysis |
| C29 | `PeriodicBuffer::compute` | list membership |
| C30, C31 | SANN and RAD filters | loop invariants |
| C32 | lock-free disjoint set machine | inductive invariant over all interleavings |
| C33 | label compaction of `Cluster::compute` | sorting lemmas |
| C34 | `ClusterProperties::compute` | counterexample for masses; partial for sorted labels or equal masses |
| C35, C36 | RDF, CorrelationFunction reductions | sums |
| C37, C38 | voxel loops | counterexamples; exact condition for completeness |
| C39 | LocalDensity weights | order algebra |
| C40 | PMFT reduce and PMFTXYZ guard | state machine |
| C41, C42 | MSD | finite sums |
| C43 | Nematic tensors | algebra, C12 |
| C44 | SolidLiquid passes | C16 + C32/C33 specification of clusters |
| C45 | hyperspherical harmonics with 32-bit factorials | exact for small `l`, counterexample at `l = 10` |
| C46, C47 | AngularSeparation | group argument over quaternions; counterexample for swapped roles |
| C48 | `isSimilar` without registration | invariants; counterexample for completeness of greedy matching |
| C49 | `m_point_environments` history | counterexample on the second compute; partial for the first |
| C50 | sequential disjoint set | invariant over merges |
| C51 | BiMap | invariant over histories |
| C52 | combinations, greedy assignment | lexicographic successor argument |
| C53 | quaternion algebra | `ring` |
| C54 | `StaticStructureFactorDebye` (axis, accumulation, normalisation, sinc and J0) | sums over pairs; mean over frames by the histogram invariant |
| C55 | `StaticStructureFactorDirect` for any list of wave vectors (binning, partial factors) | `|sum|^2` is non-negative; mean over sampled vectors |
| C56, C57 | the `_Compute` flag, `compute` of RDF, Cluster, MSD as transactions | histories; counterexamples for calls that fail half way |
| C58 | `set_num_threads`, `NumThreads` | nested histories by induction |
| C59 | `UnitCell.generate_system` | C29 machinery, block structure of the result |
| C60 | `Interface` | sorting and removal of duplicates |
| C61 | the setters of `Box` | invariant over assignments |
| C62 | `Box::centerOfMass`, `center` over `ℂ` | arguments of complex means; periodicity of the exponential |
| C63 | memory cells with compute objects pointing to them (arrays of the classes built on `BondHistogramCompute`), heap of bond arrays with neighbor lists and the list of a `Voronoi` object. Classes without accumulation allocate all result arrays in every `compute`, so there is nothing to model there | invariant: different objects have different cells, each cell holds the arrays of its object; cells nobody points to are never written; induction over histories |
| C64 | results of C30, C31 | refinement to a sublist; sizes |
| C65 | the unfiltered list of `Filter.compute` for nothing given, a dictionary or a list; both filters; engines of C85 | the sorted row of the shorter list is the beginning of the row of the longer one up to vectors, closing and blocking look only at the beginning; uniqueness of sorted columns; all pairs below half the box are the bonds of a ball query |
| C66 | `NeighborPerPointIterator`, `loopOverNeighborsIterator` | C15 + schedules |
| C67 | `LocalBondProjection` | maximum over a group orbit |
| C68 | the Kabsch step of registration | trace inequality for orthogonal matrices over `ℝ` |
| C69 | `EnvironmentCluster` with registration | invariant over merges |
| C70, C71 | `EnvironmentMotifMatch`, `EnvironmentRMSDMinimizer` | C48, C52 |
| C72 | `RotationalAutocorrelation` | characters of SU(2), Chebyshev sums |
| C73 | `reciprocal lattice`, `KMin/KMax` loops of the wave vector sampling | quadratic inequality for the loop bounds |
| C74 | as C55 | unit complex factors, `exp(2 pi i n) = 1` |
| C75 | `HexaticTranslational` | polar form, equality in the triangle inequality, roots of unity |
| C76 | `Steinhardt` with thread storage and histories of calls | addition theorem, Cauchy-Schwarz, storage invariant |
| C77 | `reduceWigner3j`, `aggregatewl` | symmetries of the Racah sum for all `l`, error bound term by term |
| C78 | the table of `Wigner3j.cc` as decimal literals | exact integer check of every literal by the kernel, root eliminated by squaring |
| C79 | `BondOrder` on top of the histogram computes | uniqueness of spherical coordinates, telescoping sum of solid angles, quaternion algebra |
| C80 | what `Voronoi::compute` does with the cells of voro++: vertices, volumes, neighbor list. The cells are data: geometric cells written into the arrays voro++ returns | projection of a point of the bisecting plane on the normal, index arithmetic of `face_vertices`, lattice algebra |
| C81 | `ContinuousCoordination` on a Voronoi diagram, and the choice of the diagram in Python | composition with C80 and C66; Bernoulli's inequality, `1 + x <= exp x`, `log x <= x - 1` with their equality cases |
| C82 | `LocalDescriptors` on a neighbor list. fsph is a parameter, a function of the direction; Eigen is a parameter, a decomposition of symmetric matrices | cursor loop equals the filtered list, polar coordinates give back the direction, equivariance of the inertia tensor, uniqueness of eigenvectors for distinct eigenvalues |
| C83 | `Cubatic`, with the random sequence of each block as a parameter | the order is one minus a squared distance of tensors, contraction formulas for the tensors of two cubes, equality case of sums of fourth powers, annealing runs as an inductive relation |
| C84 | `DiffractionPattern` as numpy and scipy operations written out in exact arithmetic, with the history of an object | pixel of a frequency from the inverse of the affine map, transform of a histogram as a sum over points, periodicity of the exponential, invariant over histories |
| C85 | the four kinds of systems, the iterators of `query` and the loops over them, `loopOverNeighbors` on a list or a query, `RDF` on top | exactness of each engine (C22, C25, C27), determinism of the sorted list (C19, C20), permutation of bonds, value of the RDF (C35) with bins counted as sets of pairs |
| C86 | nothing new: the engines, lists and compute classes of C22-C27, C32, C35, C39, C75, C76, C85 on two descriptions of the same particles | `IsImage` is an equivalence that respects separations, so the bonds of the second description are the relabelled bonds of the first (exactness in C85); per class, permutation of the bonds of a particle and of the particles |
| C87 | `from_system`, `Box.from_box`, `_convert_box`, `_convert_array`, `_preprocess_arguments`, `_resolve_neighbors` on the forms of a system; class paths of foreign libraries are constructors of the type of forms | case analysis; an upper triangular matrix is turned into the box with the same vectors; exactness of the ball query (C22, C85) for the arguments after defaults and validation (C28). Partial: false for cells that are not in standard orientation and for tilted MDAnalysis cells |
| C88 | the shape checks of the `compute` methods of sixteen classes, `makeDefaultNlist` / `validate`, and the list of all unchecked reads of the compiled code, as functions of the lengths of the arrays and the index pairs of the bonds | membership in the list of reads. Partial: the code does not check enough, the exact conditions are proved as equivalences |
| C89 | nothing new: the engines, lists and compute classes of C86 and `MSD`, `Box.__mul__` on a system and the same system in another unit of length | the lattice, images and cell of the scaled box are the scaled ones, so the bonds are the scaled bonds (exactness in C85); per class, the factor cancels or comes out |
| C90 | `Fl.rnd` (round to nearest even on rationals) and `RegularAxis` with every operation rounded | rounding is monotone and has a relative error; bounds of the quotient. Partial: false for very many bins |
| C91 | `wrap`, `makeFractional`, `makeAbsolute`, `getImage`, `unwrap` with every operation rounded | error calculus through the formulas (`Near`); exactness of the remainder; a number below one times a length rounds to less than the length. Partial: false near faces and in tilted boxes |
| C92 | sums of lists and of lists of lists with every addition rounded | induction with the factor `1 + u` per addition; integers up to `2^p` are exact |
| C93 | the tree, `overlap`, `updateImageVectors` and the ball iterator, and `getCellCoord`, with every operation rounded | the overlap test is monotone in each component as rounding is, so a node is entered if a point in it passes; error calculus for the difference vector. Partial: cells only without tilt, false with tilt |
| C94 | calls of the histogram computes of C36, C40, C79 with the bonds of a source of C85, on two descriptions of the same frames | the samples of the second description are a permutation of those of the first (C86, C89), the counts of the bins do not depend on the order; the scaled edges hold the scaled samples |
| C95 | the queries and computes of C85, C86, C94 on two frames whose boxes are cells of the same lattice up to a rotation, with the particles turned | the set of periodic images of a difference vector is a property of the lattice, not of the cell; the bonds of C85 are described by it, so those of the second frame are the turned bonds; each sample is unchanged by a common rotation (C56, C57 for Steinhardt). Limit: the accepted cutoffs depend on the cell |
| C96 | memory as a map from addresses to numbers, NumPy arrays as lists of addresses (so views may overlap), `_convert_array`, and the parallel loops as interleavings of single reads and writes | an invariant over the executed prefix of the accesses: written places hold the result of their row, all others are as before, local variables hold the inputs; the loops are safe if no iteration writes an input of another one. Limits: overlapping views, flat output arrays |
| C97 | `_quat_to_z_angle` and `_gen_angle_array` on arrays given by shape and entries (with `rowan.to_axis_angle` from its documentation), the default cutoffs, and the query points moved by `shiftvec` | case distinction on the squeezed shape; the half angle of a rotation about z; a rotated vector in the range is shorter than the cutoff except at the corner; C85 for the bonds. Limits as counterexamples |
| C98 | the class methods of `UnitCell` for named structures and `make_random_system`, on top of the models of `generate_system` (C59), box conversion and queries (C85) | every bond of a particle is a vector to another site of the infinite crystal and vice versa (C59 and the uniqueness of short images); sites in integer coordinates, where the first shell is a finite list whose completeness follows from a bound on a quadratic form; sixfold order from the roots of unity (C75) |
| C99 | the queries (C85), `RDF`, `CorrelationFunction`, `PMFTR12` and the bond vectors of `BondOrder` as modelled before | the set of query bonds is closed under reversal because lattice vectors are closed under negation; the results are functions of the multiset of bonds (C85, C36, C37) |
| C100 | the queries (C85), `RDF`, `PMFTXY`, `PMFTXYT`, `PMFTR12` as modelled before | the bonds of a joint list are those of the parts with shifted numbers (membership and absence of repetitions); numbers of pairs of a disjoint union add up; the normalization is a function of the numbers of points |
| C101 | `Steinhardt` as modelled for C76-C78; the spherical harmonics as explicit polynomials (`Spec/SphericalHarmonics.lean`) | a direction is a binary quadratic form (spinor picture), its power `l` has the harmonics as coefficients; mirrors act on forms by substitution; the pairing gives the addition theorem, the triple transvectant gives `w_l` (Racah's formula is its expansion); every isometry is a product of mirrors; the squares of the 3j symbols add up to 1 (kernel evaluation for all 21 tables), which bounds the rounding of the table |
| C102 | `__eq__`, `to_dict`, `to_box_params`, `__repr__`, `cube`, `square` (`Model/BoxForms.lean`) with `from_box`, the constructor and assignments as in C61 and C87 | a state is determined by the ten compared attributes as long as `dimensions` is not assigned (C61); reading back by cases of dimension |
| C103 | the constructors and array properties of both classes (`Model/GridArgs.lean`) around the loops of C37 and C38 | cases of the argument; the width in effect as an invariant of histories; for tilted boxes the loops stay within the grid when the points are clear of its faces, and shifts along the first lattice vector do not see the tilt |
| C104 | `SolidLiquid.run`: the constructor, the Steinhardt step with its thread storage and history, the loop over bonds, the two filters; values that are not numbers are `none`, and they are compared as zero, which like NaN is above no threshold that is allowed | addition theorem (C101) for the sum over `m` of two particles, so that `ql_ij` is a double sum of Legendre polynomials; Cauchy-Schwarz from the sign of the quadratic form; C44 and C33 for counts and clusters |
| C105 | `Model/Plot.lean`: what each function of `freud/plot.py` passes to matplotlib (paths with their colors, axis limits, bars, arrays with extents, color values); matplotlib's rule for `imshow` and for color maps is a small stated assumption (`Image.shown`, `colorOf`), `line_plot`, `histogram_plot`, titles, ticks and labels are not modelled | edges as permutation of unordered pairs of corners; stable sort; floor arithmetic for pixels; composition with C33 and C84 |
| C106 | the models of C59, C98 (cells and systems), C75, C76, C101, C104 (order parameters) and C33 (clusters) joined; nothing new is modelled | the neighbors of every particle are computed in integer coordinates (Lemmas/Crystal), the angles between them are rational, `q_l` is evaluated exactly by the Legendre sum of C76; chains of neighbors from generators of the lattice (Lemmas/CrystalChains) |
| C107 | Flat arrays (N, number of l) and (N, 2l+1), the loops over l_index and k inside the loops over the particles, one thread storage per l, histories; `Verif.Model.SteinhardtSeveral`. | Every loop is shown to transform arrays given by functions; the entry (i, j) is compared with the row computation for one l (`Verif.Model.Steinhardt`), so the theorems C76-C78, C106 and others about one l hold for every column. |
| C108 | The models of C35, C36, C40 with bonds from a `Source` (`Model/Sources.lean`, `Model/PairFrames.lean`); nothing new is modelled. Spec `Spec/Marginals.lean`: mean over cells, frames both classes accept. | The values proved in C35, C36 and C40, and a lemma that the cells of a histogram summed over a coordinate that is always in range count the samples without that coordinate; the angle is in [0, 2 pi) by `modulusPositive`. With `normalization_mode='finite_size'` the RDF is larger by N/(N-1), so the agreement is stated for `exact`. |
| C109 | The models of C35, C36, C40, C45, C59, C75, C76 with bonds from a `Source`; nothing new is modelled. Spec `Spec/Repeat.lean`: a box whose lattice is coarser, points that repeat others, frames that hold m cells. | Images under the coarser lattice are images under the finer one, and short images are unique: so every bond of a particle is found once at each copy, and the list of all bonds is m times the list of the small cell, up to the numbering (`C109_bonds`). Counts are multiplied by m, and so are the normalizations. `C109_generate` shows that generated systems with more replicas are such repetitions (C59 gives exactly the positions). In the finite_size mode the factor m(N-1)/(mN-1) is part of the statement. |
| C110 | The models of C16, C32, C33, C35, C36, C39, C75, C76, C85; nothing new is modelled. Spec `Spec/Local.lean`: the same particles with another range of neighbors; particles that are the same up to a distance from a point. | The bonds of a source are exactly the pairs in range (C85), each once, so those in a common interval agree, and those of a query point only depend on the particles in range. Values per bin and per particle follow from C35, C36, C39, C75, C76; two particles with the same distribution of bond directions have the same Steinhardt order (`steinhardt_local`). The averaged order needs the triangle inequality for periodic images. |
| C111 | the frames of C94 with data related by `SameRotation` (opposite quaternions) or `SameAngle` (full turns), `Redescribed`; the models of LocalBondProjection, LocalDescriptors, Cubatic and DiffractionPattern | the rotation of a vector by a quaternion does not see its sign, the angles enter through sine, cosine and `modulusPositive`; with C94 for another source and schedule; for DiffractionPattern an invariant of two histories |
| C112 | the models of CorrelationFunction, GaussianDensity, Hexatic, Steinhardt and DiffractionPattern; the relations `QueryCombined`, `ValuesCombined` (three histories) and `Reweighted` | from C36, C38 (`density_hits`), C75 and C76: the means, sums and normalized distributions are linear, or homogeneous of degree zero |
| C113 | the models of RDF, CorrelationFunction, the PMFTs, BondOrder and StaticStructureFactorDirect, twice, with `n` and `m * n` bins; `part m i k` is the k-th part of bin i | from C35, C36, C40, C55 and C79: a value in a coarse bin is in exactly one of its parts (floor of a quotient), so counts and sums add up; the sizes of the parts telescope |
| C114 | the models of C23, C37, C39, C48 and C104 | from the characterisations of both results; for the nearest neighbors a counting argument (the first m+1 of one list cannot all be among the first m of the other). Partial because the greedy pairing of environments can lose a match when the threshold grows |
| C115 | the models of C29 (buffer, now with the Python argument) and C85 (sources of bonds) | the fractional coordinates of a displacement are bounded by its length over the plane distances, so a place near the box has coordinates in the enlarged box; with C29_distance_exact and the exactness of neighbor sources. Partial because for tilted boxes a buffer of r is not enough |
| C116 | the models of C55, C73 (direct structure factor and its wave vectors), C59 and C98 (unit cells) | translating the larger cell by a vector of the smaller one permutes the particles up to images that the wave does not see, so the sum of the waves is multiplied by a phase that is not 1 and must vanish; at the waves of the smaller cell all copies have the same phase; named cells by evaluating the phases |
| C117 | the models of C35 (RDF), C59 and C98 (crystals) and C85 (sources) | all bonds have the length of the first shell and there are z per particle; with the values of the RDF for given bonds |
| C118 | Model/FilterRADArgs: the checks and defaults of `points_radii` and `query_points_radii` around the model of C31; non-finite entries are `none` | case analysis of the checks; the blocking test is homogeneous in the squared radii; in open mode a bond survives if every test that could block it fails, compared row by row between two runs (C31, C65) |
| C119 | the model of C34 (Model/ClusterProps) | quadratic forms of the tensors as sums over the members of the cluster (C34), Lagrange's identity, scaling of the phase sums of the periodic center of mass (C62) |
| C120 | the MSD model of C41/C42 with all histories of `compute` | from C42_after_history the results are functions of `Spec.trajectories`; isometries and time reversal by reindexing the windows, velocity and step bounds by a Minkowski inequality for squared distances |
| C121 | `MatchEnv` (clusters, motifs), `UnitCell.generateSystem`, query sources | `C121_one_cluster`, `C121_environments`, `C121_motif`, `C121_other_motif` from C50, C69, C70 for points with equal environments; `C69_not_turned` by induction over the bonds; the crystals from the star lemmas of C106 and the chains of nearest neighbors |
| C122 | The models of the two structure factors (C54, C55), their formulas `debyeS` and `directS` | integrals over the circle and the sphere of plane waves (`Lemmas/Sphere.lean`: rotation of the axis on circles, moments of linear forms, power series) give `besselJ0` and `sinc`; linearity over the pairs; short separations are not wrapped (C06) |
| C123 | `Model/Prune.lean`: the pruning distances with principal complex roots, the random choice, on top of the loops of C73 | the trigonometric form of the cubic's roots (modulus and angle of `-q/2 ± sqrt D`, triple angle formula); integrals of the kept density; Lebesgue measure of the accepting random numbers; linearity of the mean over the loop indices |
| C124 | `Model/SourcesNearest`: nearest-neighbor queries of all four kinds of system (`System.NearQuery`), built from the models of C23, C26, C28 | `Props/NearestShell`. The lemmas of C23 are redone for the nearest of the 27 copies that are searched (`Lemmas/NearestCopies`), which removes the assumption on the tilt: a point nearer than half of the plane distance always has its image among them, and no other copy of it is nearer. A counting argument then shows that the k answers are the k points of the shell. Turned and scaled systems are reduced to `queryBond_turned` and `queryBond_scaled` (C95, C89). `Props/NearestCrystals` applies it to the crystals of C98 |
| C125 | no new model: `Model/Filter` and `Model/FilterInput` (C30, C31, C65) on the crystals of `Model/UnitCell` (C59, C98) | `Props/FilterCrystals`. `Lemmas/FilterCrystals` finds the offered neighbors among the sites of the infinite crystal. `Lemmas/FilterShells` reduces each filter to facts about these sites: for SANN two inequalities between the shell radii and their occupations; for RAD that no site of the shells blocks a farther one of them, and that every site beyond the shells is blocked by one of them. In integer coordinates the latter is a linear argument (sites that are not blocked lie in a small cube) and a finite check of that cube, for all infinitely many sites |
| C126 | The run of `Steinhardt` as in C76, its values as sums of `P_l` over pairs of bonds | `P_l` has the size 1 only at the ends of the interval: if it had it inside, the addition theorem (positive sums over three directions) would make `P_l` constant on an interval, hence a constant polynomial, but `P_l(2) > 1`. Equality in a sum of bounded terms with positive weights forces every term, so all pairs of directions agree up to the allowed sign. Only `FsphOK` is assumed, with the harmonics of C101 |
| C127 | The run of `SolidLiquid` as in C104, its values as overlaps of distributions of directions | Equality in the inequality of Cauchy and Schwarz: the overlap of the scaled difference of the two distributions, with any third direction added, is not negative, so the difference has no pattern. Patterns are stated with Legendre polynomials, without harmonics |
| C128 | The container freud sets up, and `Voronoi::compute` as in C80. That voro++ returns the cells of the periodic diagram of the container is an assumption, stated as sets of positions with Lebesgue measure (`VoroOK`); the area of a facet is any function of sets that translations leave unchanged | The images of the cells under the lattice cover space (every position has a closest site, the sites being closed) and overlap in parts of planes only, so one cell for each point is a fundamental domain up to null sets and has the volume of the parallelepiped, the product of the diagonal of the container. A facet between `i` and an image of `j`, moved by a lattice vector, is the facet between `j` and an image of `i`. `C128_images` derives from the diagram of the container what C80 and C81 assume of cells: in 2D, a facet towards an image at another height would lie on a line unless that image is right above or below |
| C129 | The container and the run of `Voronoi::compute` as in C128, for two descriptions | The map between the descriptions takes the sites of one to the sites of the other (in 2D it keeps the vertical, as the lattices span the plane), so it takes regions to regions and facets to facets; it keeps Lebesgue measure as its determinant is 1 or -1, and keeps the part of the normals across the plane |
| C130 | The container and the run of `Voronoi::compute` as in C128 | Only finitely many images are within a distance (a lattice is discrete), so if nothing is in or on the sphere with the connection as its diameter, a small disc around the middle, across the connection, belongs to both regions: the facet is broad, voro++ returns its ridge, and in 2D the ridge is not horizontal. A closest image has nothing between, and exists by the same finiteness |
| C131 | The container and the run of `Voronoi::compute` as in C128, the crystals of C59 and C98; nothing new is modelled | Voronoi's theorem on lattices: if a lattice vector a is inside or on the sphere with diameter v, so is v - a, and every point of the facet is on the two planes half way to a and to v - a, which meet in a line; conversely C130. Volumes: the regions are translates of each other and fill the box. For the crystals, integer coordinates: vectors that are not in the list are excluded by a vector of the list (linear arithmetic), and for those in the list only finitely many vectors can be between |
| C132 | The container and the run of `Voronoi::compute` as in C128; nothing new is modelled | In 2D the conditions for a region split into those in the plane and those along z, as every site can be moved to the plane and every height is taken by an image of the particle itself; each is multiplied by a positive number. So stretching maps regions to regions and facets to facets. `C132_units` |
| C133 | `Voronoi.compute` on diagrams of voro++ (`VoroOK`, as in C128), `Coordination.compute`, `UnitCell.generateSystem` | a symmetry of the lattice takes the set of sites around one particle to that around another, hence shared facets to shared facets (`shared_symmetry`); mirrors of the crystals are checked in integer coordinates, two of them connect any two neighbor vectors of a shell; equal ridges at equal distances are equal shares `1/N` of the cell, and each of the formulas of C81 gives `N` |
| C134 | the models of C80, C104-C106 and C126 put together: the Voronoi neighbor list of a generated crystal is given to Steinhardt, SolidLiquid and Hexatic | by C131 the bonds of each particle are the nearest vectors, by C133 their weights are equal, and in a box more than twice as large the wrapped difference of the positions is the bond's vector; then the values follow as in C106. Beside the theorems, the diagrams of the sc crystal of 27 cells and of the square crystal of 9 cells are built explicitly and meet the hypotheses |
| C135 | the models of C80, C81, C109 and C128 put together: two descriptions of one periodic system, one with a coarser lattice | the periodic images of all points are the same set of sites, so regions and facets are the same (they depend on where the sites are and not on whose sites they are); bonds are compared one to one by the particle and image they lead to. Met by the sc crystals of one and of 27 cells, whose diagrams are built explicitly |
| C136 | Voronoi, Steinhardt, SolidLiquid and UnitCell as in C134; SteinhardtUnweighted in Spec/VoronoiBcc.lean is the same claim without weights, for neighbors at several distances, SteinhardtWeighted the one with weights, as a function of the two areas of facets | C131 gives the 14 neighbors, whose directions are the same for all particles; q_l follows from C106_same_surroundings with the Legendre polynomials as polynomials in the square of the cosine, which is rational also between neighbors at different distances; the diagrams of the crystals with 27 bcc and 8 fcc cells are constructed as witnesses |

Properties that cannot be expressed: none is given up in advance. Numerical accuracy of
floating point results other than C90-C93, memory safety of the pybind layer and performance are outside
the model.

## 5. Disagreements between the code and its properties

Each is a theorem ending in `_counterexample`, with a concrete input. They were found while
proving; the properties are kept as a user would state them, and the part that holds is
proved under the suffix `_partial`.

| theorem | what the code does |
|---------|--------------------|
| `C04_unwrap_counterexample` | images of a point on a lower face are one too low |
| `C05_symmetry_counterexample` | in tilted boxes a separation on a face has two distances |
| `C06_tilted_counterexample` | wrapping is not the minimum image in tilted boxes |
| `C08_periodicity_counterexample` | `from_box` and `*` drop the periodic flags |
| `C09_boundary_counterexample` | checked access accepts an index equal to the dimension |
| `C16_short_mask_counterexample` | a mask that is too short is read past its end |
| `C17_direction_counterexample` | all-pairs vectors point opposite to the documentation |
| `C19_index_order_counterexample` | ties are ordered by weight before distance |
| `C23_*_counterexample` | nearest-neighbor search by AABB: stops before `r_max`; stops at the box size; repeats points for large `r_guess`; misses copies in strongly tilted boxes |
| `C26_long_box_counterexample` | LinkCell misses nearer points in elongated boxes |
| `C27_*_counterexample` | CellQuery: a second query during a loop loses bonds; aperiodic boxes are treated as periodic |
| `C28_*_counterexample` | the reserved value -1 is accepted; tuples skip the periodicity check |
| `C29_*_counterexample` | PeriodicBuffer replicates aperiodic directions and loses upper-face points |
| `C34_mass_counterexample` | centers of mass use the masses of other points when labels are not sorted |
| `C35_*_counterexample` | RDF: normalisation by the last frame; stale mode; `n_r` omits points below `r_min` |
| `C36_default_query_values_counterexample` | out-of-bounds read with default query values |
| `C37_*`, `C38_*_counterexample` | voxels in range missed; a point counted twice |
| `C39_far_neighbor_counterexample` | negative neighbor counts for custom lists |
| `C40_*_counterexample` | failed 2D call fixes the number of equivalent orientations; zero ranges accepted |
| `C42_*_counterexample` | MSD: batches of different length accepted, reads raise; images without box ignored |
| `C44_different_sizes_raise_counterexample` | SolidLiquid with lists between different sets raises |
| `C45_overflow_counterexample` | 32-bit factorials overflow at `l = 10` |
| `C46_default_counterexample` | the default equivalent orientations give an angle of `2 pi` for `q`, `-q` |
| `C47_*_counterexample` | AngularSeparationNeighbor swaps the roles of points and query points |
| `C48_greedy_counterexample` | greedy matching reports similar environments as different |
| `C49_second_compute_counterexample` | environments accumulate over calls |
| `C51_*_counterexample` | BiMap: assignment through `left[a]` breaks bijectivity; `end()` dereferenced |
| `C52_*_counterexample` | greedy assignment is not minimal; empty point sets read missing rows |
| `C54_one_value_counterexample` | one k value gives an axis with infinite bounds |
| `C56_*`, `C57_*_counterexample` | failed calls set the computed flag or erase earlier results |
| `C58_*_counterexample` | NumThreads restores the count at construction, not at entry |
| `C59_fractional_counterexample` | tilted cells replicated unevenly are shifted off the lattice |
| `C60_default_neighbors_counterexample` | the documented default `neighbors=None` raises |
| `C61_dimensions_counterexample` | assigning `dimensions` leaves an inconsistent box |
| `C62_aperiodic_counterexample` | center of mass outside an aperiodic box |
| `C64_*_counterexample` | filtered lists shrink the number of points; RAD reverses vectors and resets weights |
| `C73_*_counterexample` | only one octant of wave vectors is sampled; wrong sign in tilted boxes |
| `C75_foreign_list_counterexample` | the neighbor list is not compared with the system: reads past the points |
| `C76_ql_average_counterexample` | the property `ql` is averaged with `average=True`, against its documentation |
| `C79_down_counterexample` | bonds pointing straight down have polar angle pi, which the last half-open bin excludes: they are not counted |
| `C79_lbod_frame_counterexample` | `lbod` turns bonds into the frame of the neighbor, not of the particle as documented; for symmetric lists the diagram is the mirror image through the origin |
| `C81_documentation_counterexample` | the documented power formula has the sum of the inverses, the code the inverse of the sum |
| `C82_more_query_points_counterexample` | the loop runs over the number of points, so rows of query points beyond that number stay zero |
| `C83_schedule_counterexample` | the random generator is seeded per block of replicates, so a fixed seed does not determine the result: it depends on how the scheduler divides the replicates |
| `C84_transposed_counterexample` | the image has y along its first index, `k_vectors` has x: `diffraction[i, j]` belongs to `k_vectors[j, i]` |
| `C84_images_counterexample` | `rowan.rotate` turns the rows of the box matrix, whose columns are the box vectors, so the projected box is turned the other way than the points and images of a point fall on different pixels |
| `C84_failed_call_counterexample` | `reset` happens before the arguments are checked: a refused call leaves zero divided by zero |
| `C84_negative_weights_counterexample` | (limit of the claim) with negative weights the centre is not the maximum |
| `C85_no_query_points_counterexample` | iterating over a query with no query points makes the iterator of query point 0 |
| `C63_no_reset_counterexample` | after `compute(reset=False)` a read writes the new results into the arrays handed out before |
| `C63_sort_counterexample` | `NeighborList.sort` rearranges arrays handed out before |
| `C63_voronoi_list_counterexample` | `Voronoi.nlist` hands out the object's own list, which the next `compute` refills |
| `C65_sann_vectors_reversed` | bonds kept by `FilterSANN` have opposite vectors for default neighbors and for a dictionary |
| `C86_outside_counterexample` | `AABBQuery` does not find a particle whose position is given two boxes away |
| `C87_mdanalysis_counterexample` | the vectors of an MDAnalysis cell are the rows of `triclinic_dimensions` (by its documentation, which is not part of /repo), `from_matrix` reads columns |
| `C87_rotated_counterexample` | a matrix that is not upper triangular is turned into standard orientation, the points are not |
| `C88_default_values_counterexample` | more query points than points and no query values: `CorrelationFunction` (and `PMFTR12`, `PMFTXYT`) read the values of the points beyond their end |
| `C88_cluster_counterexample` | `Cluster` with a list made for more points than the system has selects sets that do not exist; the list is not validated |
| `C88_masses_counterexample` | `ClusterProperties` does not compare the number of masses with the number of points |
| `C88_no_points_counterexample` | `ClusterProperties` reads the largest cluster index of no points |
| `C88_projection_counterexample` | `LocalBondProjection` does not compare the number of orientations with the number of points |
| `C88_no_equivalents_counterexample` | the first of no equivalent orientations is read |
| `C88_angular_separation_counterexample` | the number of query points is taken from the orientations, and fewer query points are read beyond their end |
| `C89_times_counterexample` | a number times a box that is not periodic in some direction is periodic in all directions |
| `C90_edges_counterexample` | in single precision, with 50 bins from 0 to 1, the reported left edge of bin 5 is counted in bin 4 |
| `C90_missing_bin_counterexample` | in single precision, an axis with 12582913 bins counts a value of its range in a bin that does not exist |
| `C91_images_counterexample` | next to a face, in single precision, `get_images` and `wrap` disagree and unwrapping does not restore the point |
| `C91_idempotent_counterexample` | in single precision, wrapping a wrapped point can move it again |
| `C91_tilted_counterexample` | in a tilted box, in single precision, a wrapped point can lie outside of the box |
| `C92_schedules_counterexample` | in single precision, the sum depends on the distribution over threads |
| `C92_counts_counterexample` | in single precision, counting stops at 16777216 |
| `C93_mutual_counterexample` | in single precision, a point can find another across the boundary that does not find it |
| `C93_cells_counterexample` | in a tilted box, in single precision, the cell of a wrapped point comes from a conversion of a negative number to an unsigned one |
| `C95_accepted_counterexample` | (limit of the claim) a cutoff accepted with one cell of a lattice can be refused with another |
| `C96_overlap_counterexample` | an output array that overlaps the input of a `Box` method is accepted and the result depends on the schedule |
| `C96_flat_output_counterexample` | an output array of shape (3,), which the documentation allows, is refused |
| `C97_quaternions_counterexample` | quaternions of rotations about z are refused if one particle is rotated and another is not, and if the z component is negative |
| `C97_default_range_counterexample` | a pair at the lower corner of the range of a PMFT is not among the default neighbors |
| `C97_shift_list_counterexample` | `shiftvec` of `PMFTXYZ` has no effect if `neighbors` is a neighbor list |
| `C102_equal_counterexample` | a 3D box with `dimensions = 2` assigned equals a 2D box but wraps differently: `set2D` does not recompute the lower corner |
| `C102_written_counterexample` | the written forms do not carry the periodicity, so an axis that is not periodic comes back periodic |
| `C103_shape_counterexample` | a 2D grid with one row loses that axis in `np.squeeze` |
| `C103_tilted_counterexample` | near a face of a tilted box the grid is continued without the tilt: a voxel far from all images of the point is marked, and gets density |
| `C104_nlist_counterexample` | the property `nlist` of `SolidLiquid` is documented as the list of the solid-like bonds, but it is the list of all bonds of the computation |
| `C105_box_color_counterexample` | A color given to `box_plot` for a 3D box is popped from `kwargs` inside the loop over the six paths; only the first path (4 of 12 edges) gets it, the others are black. |
| `C105_box_limits_counterexample` | The axes of a 3D `box_plot` are set from the corners 0 and 7 only; with a negative tilt factor other corners lie outside the axes. |
| `C105_pmft_counterexample` | `pmft_plot` passes `np.flipud(pmft)` to `imshow` without transposing (unlike `density_plot`): x and y are exchanged in the picture, and with different numbers of bins the bins are mixed up. |
| `C105_diffraction_counterexample` | `diffraction_plot` passes the array to `imshow` without flipping: the picture is upside down relative to its k_y axis; a wave vector with structure factor 0 is shown in the brightest color. |
| `C105_voronoi_area_counterexample` | `voronoi_plot(color_by='area')` shifts the areas by 1/2 like the (integer) numbers of sides; cells do not have the color the color bar has at their area. |
| `C114_threshold_counterexample` | two environments match within 1/2 and not within 6/10, because the first vector then takes the partner that the second one needs |
| `C115_tilted_counterexample` | in a box with tilt 1 a copy of the only point is less than 1 from a place in the box, and the buffer of width 1 does not hold it |
| `C118_growth_closed_counterexample` | in closed mode a larger particle can give a bond to another one |
| `C120_reversed_direct_counterexample` | time reversal is not a symmetry of direct mode, because the first frame is the reference |
| `C122_periodic_counterexample` | when the particles fill the box, the Debye formula with nearest images can be negative |
| `C123_kmin_counterexample` | with `k_min > 0` fewer wave vectors than `num_sampled_k_points` are used on average, as the pruning distance ignores `k_min` |
| `C97_shift_center_counterexample` | a neighbor at `shiftvec` from its query particle is counted at twice `shiftvec` by `PMFTXYZ`, not at the center of the histogram as documented: `shiftvec` is added to the separations instead of subtracted |
| `C97_shift_frame_counterexample` | `shiftvec` of `PMFTXYZ` is added in the frame of the box, not in that of the query particle: turning a particle and its neighbor together changes the result |
| `C54_min_valid_k_counterexample` | with accumulated frames of different boxes `min_valid_k` is below the smallest valid k of every box but the largest |
| `C74_incommensurate_counterexample` | (limit of the claim) images matter off the reciprocal lattice |

## 6. What is not modelled

* Rounding, except in the theorems about floating-point arithmetic (C90 to C93), NaN and infinity (except where a theorem
  says that a division by zero occurs), and therefore every tolerance that only compensates rounding. Overflow is modelled in
  `RotationalAutocorrelation` (factorials) only.
* pybind11 wrappers (except the conversion of the arguments that properties mention), memory ownership,
  and the parts of `freud.plot` and `freud.util` that only call matplotlib or numpy for the appearance; where a plot puts
  the data is modelled (C105), and so are the compute flag, the conversion of shapes, boxes and arrays, and all of
  `freud.data`.
* The computation of Voronoi cells by voro++ (what freud does with the cells is modelled; the container
  that freud gives to voro++ is periodic in all directions whatever the box says),
  the random number generator of Cubatic (any sequence of numbers), the rendering of
  diffraction patterns to colours, and the parallel scheduler itself (a schedule is any
  partition into blocks, in any order).
* The random number generator of the wave vector sampling (any numbers; uniform ones where a property is about
  probabilities, C123).
