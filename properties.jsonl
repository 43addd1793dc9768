{"id": "C01", "title": "PDD rows list the true k nearest neighbours", "statement": "Each row of amd.PDD(pset, k, collapse=False) lists, in increasing order, the distances from one motif point to its k nearest other points of the infinite periodic set: every entry is the distance to a distinct point, and every point not listed is at least as far as every listed one.", "quantifier": "every dimension, every motif, every non-singular unit cell, every k", "why_tests_cant": "the infinite point set is enumerated until a stopping rule fires; a test fixes one cell and one k, the rule must be right for all of them", "anchors": ["src/amd/_nearest_neighbors.py:nearest_neighbors", "src/amd/calculate.py:PDD"]}
{"id": "C02", "title": "AMD is the multiplicity-weighted mean of neighbour distances", "statement": "amd.AMD(pset, k) has k entries and entry j is the mean over the unit cell of the distance to the (j+1)-th nearest other point; with an asymmetric unit the mean is weighted by multiplicities.", "quantifier": "every periodic set with or without asymmetric unit, every k", "why_tests_cant": "needs the stopping rule of the neighbour search to be right for every input", "anchors": ["src/amd/calculate.py:AMD", "src/amd/calculate.py:_average_columns_except_first"]}
{"id": "C03", "title": "Translation invariance", "statement": "Shifting every motif point by the same vector changes neither AMD nor PDD.", "quantifier": "every periodic set, shift vector, k and option", "why_tests_cant": "universally quantified over real vectors", "anchors": ["src/amd/calculate.py:AMD", "src/amd/calculate.py:PDD", "src/amd/_nearest_neighbors.py:nearest_neighbors"]}
{"id": "C04", "title": "Rotation and reflection invariance", "statement": "Applying one orthogonal transformation to motif and cell changes neither AMD nor PDD.", "quantifier": "every periodic set, orthogonal matrix, k and option", "why_tests_cant": "universally quantified over the orthogonal group", "anchors": ["src/amd/calculate.py:AMD", "src/amd/calculate.py:PDD", "src/amd/_nearest_neighbors.py:nearest_neighbors"]}
{"id": "C05", "title": "Scaling", "statement": "Scaling motif and cell by s>0 multiplies every AMD entry (and every uncollapsed PDD distance) by s.", "quantifier": "every periodic set, s>0, k", "why_tests_cant": "universally quantified over reals", "anchors": ["src/amd/calculate.py:AMD", "src/amd/calculate.py:PDD"]}
{"id": "C06", "title": "Motif order is irrelevant", "statement": "Permuting the motif leaves AMD unchanged and only permutes the rows of the uncollapsed PDD.", "quantifier": "every periodic set and permutation", "why_tests_cant": "factorially many permutations of unbounded motifs", "anchors": ["src/amd/calculate.py:AMD", "src/amd/calculate.py:PDD"]}
{"id": "C07", "title": "Independence of unit cell and motif choice", "statement": "Two descriptions (motif, cell) of the same periodic point set give the same AMD.", "quantifier": "every pair of descriptions of one periodic set", "why_tests_cant": "infinitely many cells describe one crystal", "anchors": ["src/amd/calculate.py:AMD", "README.md"]}
{"id": "C08", "title": "Distances are non-negative and ordered", "statement": "AMD and every PDD row are non-negative and non-decreasing in k.", "quantifier": "every periodic set, k and PDD option", "why_tests_cant": "holds for the result of an unbounded search", "anchors": ["src/amd/calculate.py:AMD", "src/amd/calculate.py:PDD"]}
{"id": "C09", "title": "k only truncates", "statement": "For k' <= k, AMD(pset, k') is the first k' entries of AMD(pset, k); likewise for uncollapsed PDD.", "quantifier": "every periodic set and pair k' <= k", "why_tests_cant": "k changes the initial batch and the stopping layer, so every pair is a different execution", "anchors": ["src/amd/calculate.py:AMD", "src/amd/calculate.py:PDD", "src/amd/_nearest_neighbors.py:nearest_neighbors"]}
{"id": "C10", "title": "AMD and PDD terminate", "statement": "For a non-singular cell and non-empty motif the neighbour search stops after finitely many layers.", "quantifier": "every dimension, non-empty motif, non-singular cell, k", "why_tests_cant": "non-termination cannot be observed by a test", "anchors": ["src/amd/_nearest_neighbors.py:nearest_neighbors"]}
{"id": "C11", "title": "History independence of the lattice caches", "statement": "The result of AMD/PDD does not depend on which calls were made before, nor on how far earlier searches consumed their lattice generators.", "quantifier": "every history of earlier calls with any dims, m, k and any interleaved consumption", "why_tests_cant": "the cache keys are computed from previous calls; only a statement over all histories settles it", "anchors": ["src/amd/_nearest_neighbors.py:_integer_lattice_batches_cache", "src/amd/_nearest_neighbors.py:memoized_generator"]}
{"id": "C12", "title": "Lattice shells are exact", "statement": "Layer d of the integer lattice generator contains every integer vector of norm in (d-1, d] exactly once and nothing else.", "quantifier": "every dimension and every d", "why_tests_cant": "unbounded in dimension and radius", "anchors": ["src/amd/_nearest_neighbors.py:_integer_lattice_generator", "src/amd/_nearest_neighbors.py:_reflect_positive_integer_lattice", "src/amd/_nearest_neighbors.py:generate_concentric_cloud"]}
{"id": "C13", "title": "Neighbour data are consistent", "statement": "nearest_neighbors_data returns distances equal to those of nearest_neighbors, and cloud[inds[i][j]] is a point of the periodic set, a translate of motif[inds[i][j] % m], at distance dists[i][j] from x[i], with distinct indices per row.", "quantifier": "every motif, cell, query subset of the motif, k, and every tie-breaking of argpartition/argsort", "why_tests_cant": "ties may be broken arbitrarily by the partition routine", "anchors": ["src/amd/_nearest_neighbors.py:nearest_neighbors_data", "src/amd/_nearest_neighbors.py:_merge_sorted_arrays_inds"]}
{"id": "C14", "title": "PDD weights are a probability distribution", "statement": "The first column of PDD is positive and sums to 1, with or without collapsing, whenever multiplicities sum to the motif size.", "quantifier": "every periodic set and option", "why_tests_cant": "depends on the grouping produced by arbitrary tolerances", "anchors": ["src/amd/calculate.py:PDD", "src/amd/calculate.py:PDD_finite"]}
{"id": "C15", "title": "Lexsort only reorders", "statement": "PDD(lexsort=True) has its rows in lexicographic order of distances and is a row permutation of PDD(lexsort=False); returned groups follow their rows.", "quantifier": "every periodic set and option", "why_tests_cant": "all orders of all row sets", "anchors": ["src/amd/calculate.py:PDD", "src/amd/calculate.py:PDD_finite"]}
{"id": "C16", "title": "Row collapsing groups", "statement": "The groups returned by PDD/PDD_finite partition the rows; rows closer than collapse_tol are merged; all rows in one group are within collapse_tol of each other; merged weight is the sum and merged row the mean.", "quantifier": "every overlap pattern", "why_tests_cant": "tolerance relations are not transitive; tests only see well separated rows", "anchors": ["src/amd/calculate.py:_collapse_into_groups", "src/amd/calculate.py:PDD"]}
{"id": "C17", "title": "PDD_to_AMD(PDD) equals AMD", "statement": "amd.PDD_to_AMD(amd.PDD(pset, k)) equals amd.AMD(pset, k).", "quantifier": "every periodic set, k, collapse setting and tolerance", "why_tests_cant": "depends on interaction of collapsing with multiplicities", "anchors": ["src/amd/calculate.py:PDD_to_AMD", "src/amd/calculate.py:AMD", "src/amd/calculate.py:PDD"]}
{"id": "C18", "title": "Asymmetric unit gives the same invariants as the full motif", "statement": "If asym_unit/multiplicities describe orbits of symmetries of the periodic set then AMD equals the AMD computed without them.", "quantifier": "every periodic set and symmetry description", "why_tests_cant": "all symmetry groups and motifs", "anchors": ["src/amd/calculate.py:AMD", "src/amd/calculate.py:PDD"]}
{"id": "C19", "title": "Finite AMD/PDD list all other points", "statement": "AMD_finite/PDD_finite rows list the distances from each point to all the other points in increasing order; AMD_finite is their mean.", "quantifier": "every finite point set", "why_tests_cant": "all finite sets", "anchors": ["src/amd/calculate.py:AMD_finite", "src/amd/calculate.py:PDD_finite"]}
{"id": "C20", "title": "Finite invariants are isometry invariant", "statement": "AMD_finite and PDD_finite do not change under isometries of the points; AMD_finite not under reordering.", "quantifier": "every finite point set, isometry and permutation", "why_tests_cant": "all isometries", "anchors": ["src/amd/calculate.py:AMD_finite", "src/amd/calculate.py:PDD_finite"]}
{"id": "C21", "title": "PDD_reconstructable reaches twice the diameter", "statement": "If PDD_reconstructable returns, all values in its last column are at least 2*diameter(cell).", "quantifier": "every 2D/3D periodic set", "why_tests_cant": "the stopping rule must hold for every cell", "anchors": ["src/amd/calculate.py:PDD_reconstructable", "src/amd/_nearest_neighbors.py:nearest_neighbors_minval"]}
{"id": "C22", "title": "Point packing coefficient", "statement": "PPC(pset)^n times the volume of the unit n-ball times the motif size is the cell volume, in every dimension; PPC scales linearly and does not depend on replacing the cell by a supercell or by another basis of the lattice.", "quantifier": "every dimension n, cell, motif size", "why_tests_cant": "unbounded dimension; closed form with factorials differs for odd and even n", "anchors": ["src/amd/calculate.py:PPC"]}
{"id": "C23", "title": "AMD_estimate", "statement": "AMD_estimate(pset,k)[i] = PPC * (i+1)^(1/n), length k, increasing.", "quantifier": "every periodic set and k", "why_tests_cant": "all k, n", "anchors": ["src/amd/calculate.py:AMD_estimate"]}
{"id": "C24", "title": "Cell diameter", "statement": "diameter(cell) is the maximum distance between two points of the closed unit cell.", "quantifier": "every cell in 1, 2, 3 dimensions", "why_tests_cant": "maximum over a continuum of point pairs", "anchors": ["src/amd/utils.py:diameter"]}
{"id": "C25", "title": "Cell parameters round-trip (3D)", "statement": "cellpar_to_cell gives vectors with lengths a,b,c and angles alpha,beta,gamma, and cell_to_cellpar inverts it; parameters for which no cell exists raise ValueError.", "quantifier": "every valid six-tuple", "why_tests_cant": "continuum of parameters and a snapping branch at 90 degrees", "anchors": ["src/amd/utils.py:cellpar_to_cell", "src/amd/utils.py:cell_to_cellpar"]}
{"id": "C26", "title": "Cell parameters round-trip (2D)", "statement": "cellpar_to_cell_2D gives vectors with lengths a,b and angle alpha and cell_to_cellpar_2D inverts it.", "quantifier": "every valid triple", "why_tests_cant": "continuum of parameters", "anchors": ["src/amd/utils.py:cellpar_to_cell_2D", "src/amd/utils.py:cell_to_cellpar_2D"]}
{"id": "C27", "title": "EMD transport plan is feasible", "statement": "EMD(..., return_transport=True) returns a non-negative plan of shape len(p) x len(q) whose entries never exceed the weights of their rows, whose row and column sums are the weights up to the solver's resolution (in total at most n*1e-8 too much and n*1e-8 too little for n rows), and whose cost is the returned distance up to 1e-8.", "quantifier": "every pair of PDDs with equally many columns, after any number of pivots", "why_tests_cant": "the number of pivots is unbounded", "anchors": ["src/amd/compare.py:EMD", "src/amd/_emd.py:network_simplex"]}
{"id": "C28", "title": "EMD is optimal", "statement": "EMD returns the least cost of a transport plan between the weights of the PDDs: exactly if weights and row distances are multiples of the resolution 1e-8, otherwise up to the error (1 + 7*n*C)*1e-8 for n rows at distance at most C.", "quantifier": "every pair of PDDs and every plan", "why_tests_cant": "optimality is a statement over all plans", "anchors": ["src/amd/_emd.py:network_simplex", "src/amd/compare.py:EMD"]}
{"id": "C29", "title": "EMD identity and positivity", "statement": "EMD(p, p) = 0 exactly and EMD(p, q) >= 0; PDDs of a periodic set and of an isometric copy have EMD exactly 0.", "quantifier": "every PDD, every periodic set and isometry", "why_tests_cant": "all PDDs", "anchors": ["src/amd/compare.py:EMD"]}
{"id": "C30", "title": "EMD symmetry", "statement": "EMD(p, q) = EMD(q, p), exactly, for PDDs of fewer than 10000 rows; for larger ones up to rounding.", "quantifier": "every pair of PDDs", "why_tests_cant": "the pivot sequences differ completely", "anchors": ["src/amd/compare.py:EMD", "src/amd/_emd.py:network_simplex"]}
{"id": "C31", "title": "EMD triangle inequality", "statement": "EMD(p, r) <= EMD(p, q) + EMD(q, r), up to the solver's resolution.", "quantifier": "every triple of PDDs", "why_tests_cant": "all triples", "anchors": ["src/amd/compare.py:EMD"]}
{"id": "C32", "title": "AMD distance is a lower bound of EMD", "statement": "Chebyshev distance between AMDs never exceeds EMD between the PDDs, up to the solver's resolution.", "quantifier": "every pair of PDDs", "why_tests_cant": "all pairs", "anchors": ["src/amd/compare.py:EMD", "src/amd/compare.py:AMD_pdist"]}
{"id": "C33", "title": "EMD terminates", "statement": "EMD returns for every pair of PDDs with equally many columns (the pivot loop never cycles), and raises ValueError otherwise.", "quantifier": "every pair of PDDs", "why_tests_cant": "non-termination cannot be tested", "anchors": ["src/amd/_emd.py:network_simplex"]}
{"id": "C34", "title": "EMD ignores row order and row splitting", "statement": "Reordering PDD rows, or splitting a row into copies sharing its weight, does not change the Earth mover's distance beyond the solver's resolution; EMD of a PDD and the reordered PDD is exactly 0 (so lexsort and collapsing identical rows do not matter).", "quantifier": "every PDD and permutation", "why_tests_cant": "all permutations", "anchors": ["src/amd/compare.py:EMD", "docs/source/Using_PDDs.rst"]}
{"id": "C35", "title": "AMD_pdist/AMD_cdist entries and low_memory", "statement": "cdist entry (i,j) and condensed pdist entry for i<j are the Chebyshev distances; low_memory=True gives identical results and a non-Chebyshev metric with low_memory raises.", "quantifier": "every collection of AMDs", "why_tests_cant": "index arithmetic for every size", "anchors": ["src/amd/compare.py:AMD_pdist", "src/amd/compare.py:AMD_cdist"]}
{"id": "C36", "title": "PDD_pdist/PDD_cdist are schedule independent", "statement": "Results do not depend on n_jobs, backend or verbose, and entry (i,j) is the EMD of items i and j.", "quantifier": "every collection, worker count and completion order", "why_tests_cant": "all schedules", "anchors": ["src/amd/compare.py:PDD_pdist", "src/amd/compare.py:PDD_cdist"]}
{"id": "C37", "title": "compare() returns a symmetric labelled distance matrix", "statement": "For one collection compare() returns a square symmetric matrix with zero diagonal, whose (i,j) entry is the distance between crystals i and j and whose labels are their names; for two collections the len x len matrix.", "quantifier": "every list of crystals", "why_tests_cant": "every size; condensed/square index arithmetic", "anchors": ["src/amd/compare.py:compare"]}
{"id": "C38", "title": "compare(n_neighbors=n) returns the n nearest other crystals", "statement": "Row i lists n distinct crystals other than i in order of distance, and no unlisted crystal is closer; names match distances.", "quantifier": "every distance matrix, n up to the number of other crystals, every tie-breaking", "why_tests_cant": "duplicates and ties; boundary n", "anchors": ["src/amd/compare.py:_neighbors_from_distance_matrix", "src/amd/compare.py:_nearest_items", "src/amd/compare.py:_nearest_neighbors_dataframe"]}
{"id": "C39", "title": "compare() routes keyword arguments", "statement": "Each accepted keyword reaches the reader/PDD/comparison function that declares it and no other value is used; verbose reaches readers and PDD comparison.", "quantifier": "every set of keyword arguments", "why_tests_cant": "combinatorially many", "anchors": ["src/amd/compare.py:compare"]}
{"id": "C40", "title": "CLI options take effect", "statement": "Every option accepted by the command line reaches compare() with the same meaning, in particular --nearest n returns n nearest neighbours.", "quantifier": "every command line", "why_tests_cant": "combinatorially many options", "anchors": ["src/amd/cli.py:main"]}
{"id": "C41", "title": "Readers yield exactly the valid crystals in order", "statement": "Iterating a reader yields the conversions of the valid items, in input order, skipping exactly the invalid ones; read() returns a single item iff exactly one is valid.", "quantifier": "every sequence of items and converter outcomes", "why_tests_cant": "all sequences, any failure position", "anchors": ["src/amd/io.py:_Reader", "src/amd/io.py:CifReader"]}
{"id": "C42", "title": "Reader warnings", "statement": "With show_warnings=True warnings (including why a crystal was skipped) are shown; show_warnings=False silences only that reader.", "quantifier": "every history of readers", "why_tests_cant": "depends on process-wide filter state and history", "anchors": ["src/amd/io.py:_Reader.__next__"]}
{"id": "C43", "title": "Symmetry operation strings", "statement": "Parsing an xyz symmetry string gives the rotation and translation it denotes, for any order of terms, case, spacing, fraction or decimal.", "quantifier": "every well-formed symmetry string", "why_tests_cant": "infinitely many strings", "anchors": ["src/amd/io.py:_parse_sitesym", "src/amd/io.py:_parse_sitesyms"]}
{"id": "C44", "title": "Expanding the asymmetric unit", "statement": "The expanded motif contains no two sites equal within tolerance modulo the lattice (when uniquifying), only images of asymmetric unit sites under the symmetries, and an equivalent of every image.", "quantifier": "every asymmetric unit and set of symmetries", "why_tests_cant": "tolerance equality is not transitive", "anchors": ["src/amd/io.py:_expand_asym_unit", "src/amd/io.py:_unique_sites", "src/amd/io.py:_reduce_expanded_equiv_sites"]}
{"id": "C45", "title": "Multiplicities, asymmetric unit indices and types", "statement": "In every PeriodicSet produced by a reader, multiplicities are positive and sum to the number of motif points, asym_unit[i] is the first motif index of the i-th orbit, and types has one entry per motif point.", "quantifier": "every expanded asymmetric unit", "why_tests_cant": "all orbit structures", "anchors": ["src/amd/io.py:periodicset_from_gemmi_block", "src/amd/io.py:_expand_asym_unit"]}
{"id": "C46", "title": "Disorder handling", "statement": "disorder='skip' rejects exactly the crystals with a disordered site; 'ordered_sites' removes exactly the disordered sites; 'all_sites' keeps all.", "quantifier": "every site table", "why_tests_cant": "all tables", "anchors": ["src/amd/io.py:periodicset_from_gemmi_block", "src/amd/io.py:_has_disorder"]}
{"id": "C47", "title": "Hydrogen removal", "statement": "remove_hydrogens=True removes exactly the sites with atomic number 1; the reader rejects the crystal iff nothing is left.", "quantifier": "every site table", "why_tests_cant": "all tables", "anchors": ["src/amd/io.py:periodicset_from_gemmi_block"]}
{"id": "C48", "title": "Missing data", "statement": "Sites with missing coordinates ('?' or '.') are removed, missing cell data is rejected with ParseError, and an unknown occupancy does not count as disorder.", "quantifier": "every site table with missing values", "why_tests_cant": "all tables", "anchors": ["src/amd/io.py:str2float", "src/amd/io.py:periodicset_from_gemmi_block"]}
{"id": "C49", "title": "Number parsing", "statement": "str2float('v(e)') = v for every decimal literal v and uncertainty e, and '?'/'.' are handled as missing.", "quantifier": "every numeral string", "why_tests_cant": "infinitely many strings", "anchors": ["src/amd/io.py:str2float"]}
{"id": "C50", "title": "Motif equality check", "statement": "PeriodicSet._equal_cell_and_motif returns True only if every point of each motif has a matching point in the other modulo the lattice.", "quantifier": "every pair of periodic sets", "why_tests_cant": "all motifs", "anchors": ["src/amd/periodicset.py:PeriodicSet._equal_cell_and_motif"]}
{"id": "C51", "title": "Continuity", "statement": "If every point moves by at most eps, every AMD entry changes by at most 2*eps.", "quantifier": "every periodic set, perturbation, eps", "why_tests_cant": "continuum", "anchors": ["src/amd/calculate.py:AMD", "README.md"]}
{"id": "C52", "title": "Reconstruction steps are sound", "statement": "Every point returned by the sphere intersection steps lies at the requested distances from its centres (and within tolerance from the origin).", "quantifier": "every input", "why_tests_cant": "continuum", "anchors": ["src/amd/reconstruct.py:_bilaterate", "src/amd/reconstruct.py:_trilaterate"]}
{"id": "C53", "title": "Refcode families are de-duplicated in order", "statement": "CSDReader with refcode_families reads every hit exactly once, in order of first appearance.", "quantifier": "every list of families and hits", "why_tests_cant": "all lists", "anchors": ["src/amd/io.py:CSDReader"]}
{"id": "C54", "title": "Asymptotics of neighbour distances", "statement": "The k-th neighbour distance divided by k^(1/n) tends to the PPC as k grows.", "quantifier": "every periodic set", "why_tests_cant": "limit statement", "anchors": ["src/amd/calculate.py:PPC"]}
{"id": "C55", "title": "random_cell always returns a cell within bounds", "statement": "random_cell(length_bounds, angle_bounds) retries impossible parameter draws and returns a cell whose lengths and angles are within the bounds.", "quantifier": "every stream of random draws", "why_tests_cant": "depends on rare draws", "anchors": ["src/amd/utils.py:random_cell"]}
{"id": "C56", "title": "PDD_reconstructable returns", "statement": "PDD_reconstructable returns a matrix for every periodic set in two or three dimensions.", "quantifier": "every 2D/3D periodic set with a motif point and independent cell vectors", "why_tests_cant": "termination and the index lookup after the loop must work for every set", "anchors": ["src/amd/calculate.py:PDD_reconstructable", "src/amd/_nearest_neighbors.py:nearest_neighbors_minval"]}
{"id": "C57", "title": "Rows of PDD_reconstructable are true neighbour distances", "statement": "Each row of PDD_reconstructable lists the distances from a motif point to its nearest other points of the periodic set, none missing.", "quantifier": "every 2D/3D periodic set", "why_tests_cant": "a missing neighbour is only visible for particular cells", "anchors": ["src/amd/calculate.py:PDD_reconstructable", "src/amd/_nearest_neighbors.py:nearest_neighbors_minval"]}
{"id": "C58", "title": "Reading a directory", "statement": "Reading a directory reads exactly the files whose extension is accepted by the backend, in the order listed; a file that fails to parse contributes the items before the failure and a warning and does not stop the others; subdirectories are not read.", "quantifier": "every directory and path", "why_tests_cant": "all directory contents", "anchors": ["src/amd/io.py:CifReader"]}
{"id": "C59", "title": "Invalid reader options are rejected before reading", "statement": "CifReader with an unknown disorder option or backend, an option the backend does not support, a path that does not exist or a backend that is not installed raises when it is constructed, before any crystal is read.", "quantifier": "every combination of options", "why_tests_cant": "combinatorially many", "anchors": ["src/amd/io.py:CifReader"]}
{"id": "C60", "title": "A reconstructed motif fits the PDD", "statement": "reconstruct(pdd, cell) returns one point per row of the PDD, the first at the origin; up to lattice translation each further point has distances from the origin and from independent lattice vectors that are shared by the first row and its own row, is not closer to a nearby lattice point than to the origin, and from the third on has a distance from the second point shared by the second row and its own; with three or more rows all points are in the unit cell. If different lengths of lattice vectors differ by more than the tolerance, these distances are not lengths of lattice vectors, and the distance from the origin is the first shared one.", "quantifier": "every PDD matrix of non-negative numbers and every cell for which reconstruct returns", "why_tests_cant": "a continuum of inputs; the search tries many combinations", "anchors": ["src/amd/reconstruct.py:reconstruct", "src/amd/reconstruct.py:_find_second_point", "src/amd/reconstruct.py:_find_further_point", "src/amd/reconstruct.py:_shared_vals"]}
{"id": "C61", "title": "reconstruct comes to an end", "statement": "reconstruct returns or raises for every cell with independent vectors, whatever uninitialised memory contains and in whatever order the k-d tree lists points.", "quantifier": "every 2D/3D non-singular cell, PDD matrix, memory contents and tie-breaking", "why_tests_cant": "termination of two loops for all cells and memory contents", "anchors": ["src/amd/reconstruct.py:reconstruct", "src/amd/reconstruct.py:_neighbor_set"]}
{"id": "C62", "title": "A sphere intersection step finds a point if there is one", "statement": "Given independent centres and distances, if some point has these distances from the centres and the given distance from the origin then the step returns a point.", "quantifier": "every choice of independent centres and distances", "why_tests_cant": "degenerate configurations", "anchors": ["src/amd/reconstruct.py:_bilaterate", "src/amd/reconstruct.py:_trilaterate"]}
{"id": "C63", "title": "Backends agree", "statement": "Reading the same CIF with reader='ase' or 'pymatgen' gives the same crystals (cell, motif, asymmetric unit, multiplicities, types), or the same rejection, as with the default 'gemmi'.", "quantifier": "every CIF block, option combination", "why_tests_cant": "every file; three separate implementations", "anchors": ["src/amd/io.py:periodicset_from_gemmi_block", "src/amd/io.py:periodicset_from_ase_cifblock", "src/amd/io.py:periodicset_from_pymatgen_cifblock"]}
{"id": "C64", "title": "Files that cannot be read are skipped", "statement": "A block with missing or unreadable cell parameters or coordinates is rejected with ParseError in every backend, so it is skipped and does not stop the reader.", "quantifier": "every block and position in the input", "why_tests_cant": "all ways in which data can be missing", "anchors": ["src/amd/io.py:periodicset_from_gemmi_block", "src/amd/io.py:periodicset_from_ase_cifblock", "src/amd/io.py:periodicset_from_pymatgen_cifblock", "src/amd/io.py:_Reader"]}
{"id": "C65", "title": "A crystal read from a CIF is the crystal the CIF describes", "statement": "The set read from a CIF block has exactly the points of the infinite crystal described by the block's sites, symmetry operations and cell, each listed once (unless disorder='all_sites'); its asymmetric unit and multiplicities are an asymmetric unit of that crystal; its AMD and uncollapsed PDD are those of any other description of the same crystal.", "quantifier": "every table of sites, every space group, every cell; images of sites that differ must differ by more than the tolerance 0.001", "why_tests_cant": "needs every crystal and every choice of description; a missing or doubled image shows only in special positions", "anchors": ["src/amd/io.py:periodicset_from_gemmi_block", "src/amd/io.py:_expand_asym_unit", "src/amd/calculate.py:AMD"]}
{"id": "C66", "title": "Isometry invariance of AMD and PDD", "statement": "Isometric crystals (related by any map that preserves distances), however described by motif, unit cell and asymmetric unit, have equal AMDs and, without collapsing, equal PDDs as weighted sets of rows; the EMD between their PDDs is 0 up to rounding (with collapsing at most four times the tolerance), and EMDs to any third PDD agree likewise.", "quantifier": "every pair of descriptions of isometric periodic sets, every k, all options", "why_tests_cant": "a continuum of isometries and infinitely many cells for each crystal", "anchors": ["src/amd/calculate.py:AMD", "src/amd/calculate.py:PDD", "src/amd/compare.py:EMD", "README.md"]}
{"id": "C67", "title": "Collapsing moves a PDD by at most twice the tolerance", "statement": "The EMD between a PDD and the same PDD computed with collapse=True, collapse_tol=t is at most 2t up to rounding, and EMDs to any third PDD change by at most 2t up to rounding.", "quantifier": "every periodic set, asymmetric unit, k, tolerance", "why_tests_cant": "every configuration of close rows", "anchors": ["src/amd/calculate.py:PDD", "src/amd/calculate.py:_collapse_into_groups", "src/amd/compare.py:EMD"]}
{"id": "C68", "title": "An ase Atoms object is converted to the crystal it represents", "statement": "periodicset_from_ase_atoms returns a set whose points are exactly the atoms (without the hydrogens if asked), each listed once, with an asymmetric unit and multiplicities of a group of symmetries; its AMD is that of any other description of the crystal; if no atom is left a ParseError is raised.", "quantifier": "every Atoms object, with or without a stored space group", "why_tests_cant": "every arrangement of atoms and every group", "anchors": ["src/amd/io.py:periodicset_from_ase_atoms"]}
{"id": "C69", "title": "Atomic types of a converted ase Atoms object", "statement": "The i-th entry of types of the converted set is the atomic number of the atom at the i-th point of the motif.", "quantifier": "every Atoms object, in any order of the atoms", "why_tests_cant": "the order of atoms is arbitrary", "anchors": ["src/amd/io.py:periodicset_from_ase_atoms"]}
{"id": "C70", "title": "Converting an object does not change it", "statement": "The converters for ase Atoms, pymatgen Structure and ccdc Crystal objects leave the object passed to them unchanged, and converting it again gives the same result.", "quantifier": "every object and every choice of options", "why_tests_cant": "every object; a changed argument is only visible later", "anchors": ["src/amd/io.py:periodicset_from_ase_atoms", "src/amd/io.py:periodicset_from_pymatgen_structure", "src/amd/io.py:periodicset_from_ccdc_crystal"]}
{"id": "C71", "title": "Disorder in pymatgen structures", "statement": "With disorder='skip' a Structure with a site not fully occupied by one species raises ParseError; with 'ordered_sites' exactly the ordered sites are used; with 'all_sites' all sites are used; an ordered Structure gives the same set with each option.", "quantifier": "every Structure and option", "why_tests_cant": "every combination of species and occupancies", "anchors": ["src/amd/io.py:periodicset_from_pymatgen_structure"]}
{"id": "C72", "title": "remove_hydrogens removes exactly the hydrogens of an object", "statement": "With remove_hydrogens=True all hydrogen and deuterium, and nothing else, is removed before an object is converted.", "quantifier": "every ase Atoms, pymatgen Structure and ccdc Crystal", "why_tests_cant": "every kind of atom", "anchors": ["src/amd/io.py:periodicset_from_ase_atoms", "src/amd/io.py:periodicset_from_pymatgen_structure", "src/amd/io.py:periodicset_from_ccdc_crystal"]}
{"id": "C73", "title": "A pymatgen Structure is converted to the crystal it represents", "statement": "The set converted from a Structure is a description of its conventional cell in which no point is listed twice, and its AMD and uncollapsed PDD are those of any description of the crystal of the Structure.", "quantifier": "every Structure", "why_tests_cant": "every arrangement of sites and choice of cell", "anchors": ["src/amd/io.py:periodicset_from_pymatgen_structure"]}
{"id": "C74", "title": "Atoms and disorder in ccdc crystals", "statement": "Converting a ccdc Crystal or Entry with disorder='skip' raises ParseError if it, or an atom, is disordered; an entry without 3D structure raises ParseError, as do atoms without coordinates; with 'ordered_sites' exactly the atoms without disorder are used, in order.", "quantifier": "every Crystal, Entry and option", "why_tests_cant": "every combination of atoms, labels and occupancies", "anchors": ["src/amd/io.py:periodicset_from_ccdc_crystal", "src/amd/io.py:periodicset_from_ccdc_entry", "src/amd/io.py:_has_disorder"]}
{"id": "C75", "title": "heaviest_component keeps the heaviest component", "statement": "With heaviest_component=True the crystal is that of the component of the asymmetric unit with the greatest weight (the first of these if several), and a molecule with one component is used as it is.", "quantifier": "every molecule and every number of components", "why_tests_cant": "ties and many components", "anchors": ["src/amd/io.py:_heaviest_component_ccdc", "src/amd/io.py:periodicset_from_ccdc_crystal"]}
{"id": "C76", "title": "molecular_centres gives one point per molecule", "statement": "With molecular_centres=True the points of the set are the centres of mass of the molecules, each listed once.", "quantifier": "every Crystal", "why_tests_cant": "every packing of molecules", "anchors": ["src/amd/io.py:_frac_molecular_centres_ccdc", "src/amd/io.py:periodicset_from_ccdc_crystal"]}
{"id": "C77", "title": "A ccdc Crystal is converted to the crystal it represents", "statement": "The set converted from a ccdc Crystal has exactly the images of the atoms of the asymmetric unit under the symmetry operations and lattice translations, each listed once, with the matching atomic numbers, asymmetric unit and multiplicities; its AMD is that of any other description; missing cell data or an empty asymmetric unit raise ParseError.", "quantifier": "every Crystal, every space group", "why_tests_cant": "every crystal and every choice of description", "anchors": ["src/amd/io.py:periodicset_from_ccdc_crystal", "src/amd/io.py:_expand_asym_unit"]}
{"id": "C78", "title": "Cubic and hexagonal lattices", "statement": "PeriodicSet.cubic(s, n) is the lattice of integer multiples of s, and its AMD and PDD start with 2n times s followed by values of at least sqrt(2) s; hexagonal(s, 2) has six neighbours at distance s and hexagonal(s, 3) eight, all others further away by the known factors; other dimensions raise NotImplementedError.", "quantifier": "every positive scale, dimension and k", "why_tests_cant": "all scales, dimensions and numbers of neighbours", "anchors": ["src/amd/periodicset.py:PeriodicSet.cubic", "src/amd/periodicset.py:PeriodicSet.hexagonal", "src/amd/calculate.py:AMD"]}
{"id": "C79", "title": "Random periodic sets", "statement": "PeriodicSet._random returns a set with the requested number of points, all in the unit cell, with a cell within the given bounds, in two or three dimensions; other dimensions raise NotImplementedError.", "quantifier": "every stream of random numbers, number of points and bounds", "why_tests_cant": "depends on rare draws", "anchors": ["src/amd/periodicset.py:PeriodicSet._random", "src/amd/utils.py:random_cell"]}
{"id": "C80", "title": "A written CIF block is read as written", "statement": "For a block whose cell, coordinates, occupancies and symmetry operations are written as the CIF standard requires, the default reader returns a set, unless a site is disordered and disorder='skip', or no site is left, when it raises ParseError; the cell has the written lengths and angles, the points are exactly the images of the written coordinates under the written operations, each listed once, and each point has the atomic number of the written element.", "quantifier": "every text of every number (sign, decimals, exponent, uncertainty), every coordinate triplet, every table and choice of options", "why_tests_cant": "infinitely many ways to write the same crystal", "anchors": ["src/amd/io.py:periodicset_from_gemmi_block", "src/amd/io.py:_parse_sitesym", "src/amd/io.py:str2float", "src/amd/utils.py:cellpar_to_cell"]}
{"id": "C81", "title": "Rounding errors stay small", "statement": "AMD and PDD computed in floating point, with any rounding of each operation and sums in any order, return a result for every crystal, and each entry differs from the true distance (or mean) by at most a small multiple of the unit roundoff, depending on the cell and the number of dimensions, times the distance plus the size of the motif; so AMDs computed from different descriptions of isometric crystals agree up to such errors.", "quantifier": "every rounding with a relative error per operation, every order of summation, every periodic set, k", "why_tests_cant": "rounding can change which points are compared, the order of points and when the search stops; equality tests cannot cover all inputs", "anchors": ["src/amd/_nearest_neighbors.py:nearest_neighbors", "src/amd/calculate.py:AMD", "src/amd/calculate.py:PDD"]}
{"id": "C82", "title": "Rounding errors of PDD distances stay small", "statement": "EMD of two PDDs, with every operation of PDD (with or without collapsing) and EMD rounded and sums in any order, returns a result that differs from the exact Earth mover's distance of the true PDDs by at most a small multiple of the unit roundoff times the distances involved, the error of the fixed-point weights and costs (multiples of 1e-8) and, with collapsing, twice the tolerance for each PDD; for different descriptions of isometric crystals the result is at most this error.", "quantifier": "every monotone rounding with a relative error per operation, every order of summation, every pair of periodic sets, k, options, tolerance", "why_tests_cant": "rounding can change which rows are merged and which pivots are made; every pair of crystals", "anchors": ["src/amd/compare.py:EMD", "src/amd/calculate.py:PDD", "src/amd/_emd.py:network_simplex"]}
{"id": "C83", "title": "Comparing CIF files of the same crystal finds distance 0", "statement": "compare, given paths of CIF files or directories, or refcodes of the CSD, returns a frame labelled with the names of the blocks (entries) that are not passed over, in order, whose entries are the distances of the invariants of the two infinite crystals described by the blocks: by AMD the Chebyshev distance, by PDD the Earth mover's distance up to rounding of weights and four times the collapse tolerance. So blocks that describe the same crystal, by whatever cell, sites, symmetry operations and texts, are at distance 0 (within that error by PDD). If all blocks are passed over a ValueError is raised.", "quantifier": "every set of files and directories, every block, each backend that reads CIF files, entries of the CSD, all options but disorder='all_sites' (unless with molecular_centres)", "why_tests_cant": "joins reading, conversion, invariants and comparison: every way to write every crystal", "anchors": ["src/amd/compare.py:compare", "src/amd/io.py:CifReader", "src/amd/io.py:periodicset_from_gemmi_block", "src/amd/calculate.py:AMD", "src/amd/calculate.py:PDD", "src/amd/compare.py:EMD"]}
{"id": "C84", "title": "Machine integers do not overflow in EMD", "statement": "EMD, which computes with weights and distances as multiples of 1e-8 in 64-bit integers that wrap around, returns exactly what it would return with unbounded integers (so its result is the Earth mover's distance up to the solver's resolution) if the distances between all rows of the two PDDs sum to at most 1e10; this holds as well when all floating point operations are rounded (sum at most 2e9).", "quantifier": "every pair of PDDs, every number of rows and pivots, every result of casting a number out of range", "why_tests_cant": "overflow depends on potentials that change in each of an unbounded number of pivots", "anchors": ["src/amd/_emd.py:network_simplex", "src/amd/_emd.py:_reduced_cost", "src/amd/_emd.py:_update_potentials", "src/amd/compare.py:EMD"]}
{"id": "C85", "title": "Continuity under any small displacement", "statement": "If the points of two periodic sets can be paired off so that distances between points change by at most d (in particular if each point is displaced by at most d/2, each on its own and not only periodically, up to isometry), then every AMD entry differs by at most d and the EMD of the PDDs is at most d, up to the resolution of EMD, rounding and collapsing, whatever motif, cell and asymmetric unit describe either set.", "quantifier": "every pair of periodic sets and pairing, every k, all options", "why_tests_cant": "a continuum of displacements; the cells of the two sets need not be related", "anchors": ["src/amd/calculate.py:AMD", "src/amd/calculate.py:PDD", "src/amd/compare.py:EMD", "README.md"]}
{"id": "C86", "title": "AMD_estimate is near AMD", "statement": "Every entry of AMD(S, k), and of every row of PDD(S, k), differs from the same entry of AMD_estimate(S, k) by at most half the diameter of the unit cell.", "quantifier": "every periodic set of any dimension, every k, all options of PDD", "why_tests_cant": "the number of lattice points in a ball depends on the cell in an irregular way", "anchors": ["src/amd/calculate.py:AMD_estimate", "src/amd/calculate.py:PPC", "src/amd/calculate.py:AMD", "src/amd/calculate.py:PDD", "src/amd/utils.py:diameter"]}
{"id": "C87", "title": "Each backend of CifReader reads the crystal that is written", "statement": "With reader='gemmi', 'ase' (or 'pycodcif') and 'pymatgen', an entry of a CIF file is read as the crystal that is written in it: cell, points, asymmetric unit, multiplicities, types and rejections are those of the text, whether symmetry operations are listed or found by the name or number of a space group. So the backends reject the same entries with the same error, and the sets they return have the same name, isometric points, equal AMDs and equal PDDs.", "quantifier": "every entry, every way to write numbers and operations, all options", "why_tests_cant": "every file, three implementations, many ways to give symmetry", "anchors": ["src/amd/io.py:periodicset_from_gemmi_block", "src/amd/io.py:periodicset_from_ase_cifblock", "src/amd/io.py:periodicset_from_pymatgen_cifblock", "src/amd/io.py:CifReader"]}
{"id": "C88", "title": "Readers give the crystals that are described", "statement": "list(CifReader(path, ...)), with each of the five backends, has in order one periodic set for each block of the file, or of the files of the directory with the right extension, that is not passed over, and its points are exactly those of the crystal the block describes, each listed once, in a cell with the given lengths and angles. list(CSDReader(refcodes, ...)) has the same for each entry of the CSD that is asked for (by refcodes, families or all), with remove_hydrogens, heaviest_component and molecular_centres applied; a refcode that is not in the CSD raises an error, as do wrong options, before anything is read. With show_warnings=False nothing is shown; with True, the warnings about the entries that are read are shown with their names.", "quantifier": "every directory, file, block, list of refcodes and entry, all options (disorder='all_sites' only with molecular_centres; otherwise C89)", "why_tests_cant": "joins iteration, skipping and conversion for every sequence of good and bad blocks", "anchors": ["src/amd/io.py:CifReader", "src/amd/io.py:CSDReader", "src/amd/io.py:_Reader"]}
{"id": "C89", "title": "disorder='all_sites' keeps every site", "statement": "With disorder='all_sites', the periodic set read from a CIF block (with each backend) or an entry of the CSD lists, one after the other and in the order of the file, for each site (each atom of the asymmetric unit) all its images under the symmetry operations in a cell, each exactly once, with the site's atomic number; the asymmetric unit has the first point of each orbit and the multiplicities are the sizes of the orbits. No site is dropped because it overlaps another one. list(CifReader(path, disorder='all_sites')) and list(CSDReader(refcodes, disorder='all_sites')) have one such set for each block or entry that has sites.", "quantifier": "every table of sites (overlapping or not), space group and cell, block, file, directory, refcode", "why_tests_cant": "overlapping sites and special positions in every combination, for every space group", "anchors": ["src/amd/io.py:periodicset_from_gemmi_block", "src/amd/io.py:_expand_asym_unit", "src/amd/io.py:CifReader", "src/amd/io.py:CSDReader"]}
{"id": "C90", "title": "AMD and PDD of sets that list points more than once", "statement": "A periodic set may list a point more than once (overlapping sites, disorder='all_sites'). Its AMD and, without collapsing, its PDD as a weighted set of rows depend only on the points and on how often each of them is listed, up to isometry, whatever motif, cell and asymmetric unit list them. If the sites of two sets can be paired off so that no distance changes by more than d, entries of the AMDs differ by at most d, and so does EMD of the PDDs from 0, up to rounding (with collapsing, four times the tolerance more). How often points are listed matters: listing every point twice makes the nearest neighbour distance 0.", "quantifier": "every pair of periodic sets with points listed any number of times, every isometry and pairing of sites, every k, all options", "why_tests_cant": "infinitely many cells and motifs for each set, a continuum of isometries and perturbations, coincident points in every combination", "anchors": ["src/amd/calculate.py:AMD", "src/amd/calculate.py:PDD", "src/amd/compare.py:EMD", "src/amd/_nearest_neighbors.py:nearest_neighbors"]}
{"id": "C91", "title": "Comparing files and refcodes with disorder='all_sites'", "statement": "With disorder='all_sites', compare of CIF files (read with any backend) or CSD refcodes gives a frame labelled by the names of the entries that have sites, in order. What is read lists each point as often as there are sites of which it is an image. Entries are the distances of the AMDs (PDDs, up to rounding and collapsing) of the infinite crystals with points counted as often as they are listed; so two files that list the same points equally often, up to isometry, have distance 0 (PDD: at most the tolerance), however their sites are split into orbits, whatever cell vectors and whichever backends are used. If no entry has sites, ValueError.", "quantifier": "every collection of files and refcodes, every backend, every position and overlap of sites, every k, all options", "why_tests_cant": "infinitely many files describe one crystal; sites overlap in every combination", "anchors": ["src/amd/compare.py:compare", "src/amd/io.py:CifReader", "src/amd/io.py:CSDReader", "src/amd/calculate.py:AMD", "src/amd/calculate.py:PDD"]}
{"id": "C92", "title": "Files of nearly the same crystal have a small distance", "statement": "If the points of the crystals described in two CIF files or CSD entries can be paired off so that no distance between two points changes by more than d (counting points as often as they are listed, with disorder='all_sites'), their AMDs and PDDs differ by at most d, and the entry of compare is at most d (PDD: plus rounding and collapsing). In particular displacing the sites in a file by at most e, with the same cell and operations, changes the result from 0 to at most 2e, if sites remain in positions of the same kind. The bound does not depend on k, the number of atoms, the backend or the setting.", "quantifier": "every pair of files or refcodes, every pairing of points, all displacements of sites, every k", "why_tests_cant": "continuity is a statement about all pairs of crystals, with infinitely many points", "anchors": ["src/amd/compare.py:compare", "src/amd/calculate.py:AMD", "src/amd/calculate.py:PDD", "src/amd/io.py:CifReader", "src/amd/io.py:CSDReader"]}
{"id": "C93", "title": "Invariants change little when the cell is strained", "statement": "If a linear map that changes no distance by more than a fraction h sends one crystal to another, up to changes of distances by d (for example the same crystal at another temperature or pressure, with a slightly different cell), then every entry of AMD changes by at most h times that entry plus d, and the PDDs differ by at most h times the last entry of AMD (times a norm factor of the row) plus d. Two cells given by lengths and angles are related by such a map, with h computed from the difference of their vectors. The entry of compare for two such files or CSD entries obeys the same bound (PDD: plus rounding and collapsing), although no translation-preserving pairing moves all points by a bounded amount.", "quantifier": "every pair of sets, files or refcodes, every strain, every k", "why_tests_cant": "a statement about all pairs of crystals with infinitely many points; the displacement of far points is unbounded, so that no finite comparison shows it", "anchors": ["src/amd/compare.py:compare", "src/amd/calculate.py:AMD", "src/amd/calculate.py:PDD", "src/amd/utils.py:cellpar_to_cell", "src/amd/io.py:CifReader", "src/amd/io.py:CSDReader"]}
{"id": "C94", "title": "compare with n_neighbors lists the nearest crystals that the files describe, and so finds duplicates", "statement": "compare(files or refcodes, n_neighbors=n) gives a table with a row for each crystal that is not passed over: the names and distances of n crystals nearest to it (among the others, or in the second collection), nearest first, where distances are those of the invariants of the infinite crystals that the files describe. So if another file describes the same crystal, DIST 1 of the row is 0 by AMD, and at most the rounding and collapsing error by PDD. This holds with every backend and for refcodes, also with disorder='all_sites'.", "quantifier": "every collection (or two) of CIF files or refcodes, every backend, every number of neighbours for which the code does not fail, every k", "why_tests_cant": "a statement about the infinite crystals that files describe and about all other items of collections of any length; a test knows a few files", "anchors": ["src/amd/compare.py:compare", "src/amd/io.py:CifReader", "src/amd/io.py:CSDReader", "src/amd/compare.py:AMD_cdist", "src/amd/compare.py:AMD_pdist"]}
{"id": "C95", "title": "The command line does what it says: from arguments to the file that is written", "statement": "amd with options (in any order, before and after the paths; long names, abbreviations that only one option begins with, short names; values as separate arguments, after =, or joined to the short name) and paths passes to compare exactly the values that are given, the last one if an option is given more than once, and the documented defaults otherwise. So with the default metric the file that is written has the matrix of distances of the invariants of the infinite crystals that the files of the paths describe. Unknown options, values that are not a choice or not an integer, paths that are separated by options and a missing path make the command exit with nothing written. What follows -- is a path, also if it begins with a dash. With a negative k nothing is written: an exception is raised.", "quantifier": "every list of arguments of these forms, all values of options, all files", "why_tests_cant": "the number of command lines is unbounded (orders, abbreviations, repetitions); a test calls main with a few", "anchors": ["src/amd/cli.py:main", "src/amd/compare.py:compare"]}
{"id": "C96", "title": "compare with another metric gives distances of the crystals by that metric", "statement": "compare(..., metric=m) on files gives, by AMD, the distance m of the AMDs of the infinite crystals that the files describe (0 if two files describe the same crystal), and by PDD the Earth mover's distance with m as the distance of rows, up to the rounding of weights and the collapse tolerance times a constant of m: sqrt(k) for euclidean, k for cityblock, 1 for chebyshev. By any such metric nearly equal crystals have a small distance. The same holds with disorder='all_sites' and for the command amd --metric=m.", "quantifier": "every metric that is 0 on equal lists (AMD) or bounded by a multiple of the Chebyshev distance (PDD), all files, all k", "why_tests_cant": "there are infinitely many crystals and metrics; a test checks one metric on a few files", "anchors": ["src/amd/compare.py:compare", "src/amd/compare.py:AMD_cdist", "src/amd/compare.py:AMD_pdist", "src/amd/compare.py:PDD_cdist", "src/amd/compare.py:PDD_pdist", "src/amd/cli.py:main"]}
{"id": "C97", "title": "Matrices of compare fit together: AMD bounds PDD, distances obey the triangle inequality and grow with k", "statement": "For one set of crystals, every entry of the matrix of compare by AMD is at most the entry by PDD plus the rounding of weights and four times the collapse tolerance, so that filtering by AMD first loses no pair that is near by PDD. Each matrix has zeros on the diagonal, is symmetric, nowhere negative and obeys the triangle inequality (exactly by AMD, up to the rounding of weights by PDD). With a larger k no entry becomes smaller (by PDD: up to rounding and collapsing).", "quantifier": "all collections of crystals that are read, all cells (growth with k: cells that are not too oblique for the smaller k), all metrics of C96", "why_tests_cant": "these are relations between the results of several calls on unboundedly many crystals", "anchors": ["src/amd/compare.py:compare", "src/amd/calculate.py:AMD", "src/amd/calculate.py:PDD", "src/amd/compare.py:EMD", "src/amd/compare.py:AMD_pdist", "src/amd/compare.py:PDD_pdist"]}
{"id": "C98", "title": "Coordinates written with few digits are read as the ideal crystal, up to rounding", "statement": "Special positions such as 1/3 cannot be written exactly in a CIF file. If the coordinates and translations in a file are those of an ideal crystal rounded by at most delta <= 1/8000 (four digits), a reader returns the motif of the ideal crystal, with its asymmetric unit and multiplicities (a site on a symmetry axis stays one point), each point displaced by at most 4 delta in each fractional coordinate. The distances that compare returns, by AMD and by PDD, are those of the ideal crystals up to 8 delta (a + b + c) for each crystal, so two files of one crystal with different numbers of digits are near. With two digits this fails: the site at 1/3, 2/3, 0 of a hexagonal crystal is read as three points.", "quantifier": "all rounding errors, symmetry groups, sites, cells, files with any number of blocks, all backends", "why_tests_cant": "Tests see a few files; whether rounded images of a special position are merged, and merged right, depends on every operation, site and rounding.", "anchors": ["src/amd/io.py:CifReader", "src/amd/io.py:CSDReader", "src/amd/io.py:periodicset_from_gemmi_block", "src/amd/io.py:_expand_asym_unit", "src/amd/io.py:_unique_sites", "src/amd/compare.py:compare"]}
{"id": "C99", "title": "AMD and PDD may be called from several threads", "statement": "Several threads of one process call AMD and PDD at the same time. They share the module-level caches of lattice points and the iterators in them (objects made by itertools.tee, which share one generator). Every thread returns what it would return in a fresh process, for every interleaving of reads and writes of the caches, of tee and of next. This holds if calls with the same dimension, number of motif points and k were made before the threads started, up to RuntimeError or ValueError when two threads advance one generator; a call that was made before with the same arguments does not raise. With nothing in the caches it fails: a thread can return wrong distances.", "quantifier": "all interleavings of any number of threads, all calls they make, all histories of calls before them", "why_tests_cant": "The wrong result needs a switch of threads between two lines; tests with threads almost never hit it.", "anchors": ["src/amd/_nearest_neighbors.py:_integer_lattice_batches", "src/amd/_nearest_neighbors.py:_integer_lattice_generator", "src/amd/_nearest_neighbors.py:memoized_generator", "src/amd/_nearest_neighbors.py:_integer_lattice_batches_cache", "src/amd/_nearest_neighbors.py:nearest_neighbors", "src/amd/calculate.py:AMD", "src/amd/calculate.py:PDD"]}
{"id": "C100", "title": "Matrices of compare by different metrics are ordered", "statement": "Two calls of compare on the same crystals that differ only in metric: if one metric is at most L times the other (Chebyshev at most Euclidean at most city block at most sqrt(k) times Euclidean and k times Chebyshev), every entry of the first matrix is at most L times the same entry of the second, exactly by AMD and up to the rounding of weights by PDD.", "quantifier": "all collections of periodic sets with all cells, one or two collections, all k, all schedules", "why_tests_cant": "An order of all entries for all inputs; no finite set of crystals settles it.", "anchors": ["src/amd/compare.py:compare", "src/amd/compare.py:AMD_pdist", "src/amd/compare.py:AMD_cdist", "src/amd/compare.py:PDD_pdist", "src/amd/compare.py:PDD_cdist", "src/amd/compare.py:EMD"]}
{"id": "C101", "title": "A negative number of neighbours is refused", "statement": "AMD, PDD and compare raise an exception for every negative k, and for all natural numbers k they do what is said elsewhere. PDD and compare do raise for every negative k (IndexError for PDD with k=-1, else ValueError). AMD raises for -1 and for all k below -m(2D+1), with m motif points in dimension D; for k between these it may silently return a list of m(2D+1)+k numbers.", "quantifier": "all periodic sets with all cells in all dimensions, all integers k, all options, one or two collections", "why_tests_cant": "The number of values of k is infinite, and whether an exception is raised depends on how many points of the first batch a slice with a negative end leaves.", "anchors": ["src/amd/calculate.py:AMD", "src/amd/calculate.py:PDD", "src/amd/compare.py:compare", "src/amd/_nearest_neighbors.py:nearest_neighbors"]}
{"id": "C102", "title": "The distance of two crystals does not depend on the company", "statement": "Two calls of compare with the same k, metric and options give the same number for the same two crystals, whatever other crystals are in the collections, in which rows and columns the two stand, what they are called, where they stand in space and how they are turned or reflected, whether they are in one collection or in two, and which of them is in the first collection.", "quantifier": "all pairs of calls of compare with any collections of any size, one or two collections, all cells in all dimensions, all k, all metrics, all numbers of jobs and schedules", "why_tests_cant": "There are infinitely many collections that hold the same two crystals, and by PDD the pairs are cut into batches that other processes work on in any order.", "anchors": ["src/amd/compare.py:compare", "src/amd/compare.py:AMD_pdist", "src/amd/compare.py:AMD_cdist", "src/amd/compare.py:PDD_pdist", "src/amd/compare.py:PDD_cdist"]}
{"id": "C103", "title": "Tables of nearest neighbours agree with the matrix", "statement": "compare with n_neighbors=n lists, for each crystal, the n smallest entries of its row in the matrix that the same call without n_neighbors returns (without the crystal itself, if there is one collection), in order, with the names of their columns. Asking for more neighbours does not change the distances in the first columns.", "quantifier": "all collections of any size, one or two, all n from 1 to the number of candidates, all k, all cells, all metrics, all results that the sorting and searching functions may return by their contracts", "why_tests_cant": "By AMD the table comes from a k-d tree and the matrix from pdist or cdist, so two different algorithms have to agree on all inputs, whatever the ties.", "anchors": ["src/amd/compare.py:compare", "src/amd/compare.py:_nearest_items", "src/amd/compare.py:_neighbors_from_distance_matrix", "src/amd/compare.py:_nearest_neighbors_dataframe"]}
{"id": "C104", "title": "How crystals are passed to compare does not matter", "statement": "compare of paths or refcodes, with options for the readers, returns or raises the same as reading them first and passing the list of periodic sets to compare without these options: the options of the readers have no other effect, and the options of the comparison do not need the files. And compare(x) and compare(x, x) return the same labels and the same matrix, by AMD and by PDD.", "quantifier": "all inputs that can be read, all options of compare, one or two collections, with or without n_neighbors, also where the comparison raises; for compare(x, x) all collections of valid crystals (by PDD of fewer than 10000 points each), any number of crystals, all k, all cells, all metrics that are distances", "why_tests_cant": "The keyword arguments of compare are split by name into six dictionaries, so an option could be lost or land in two of them for some combination; and compare(x) and compare(x, x) run different code (pdist and cdist, with other orders of the two sides).", "anchors": ["src/amd/compare.py:compare", "src/amd/compare.py:_unwrap_pset_list", "src/amd/compare.py:_unwrap_refcode_list", "src/amd/compare.py:_default_kwargs", "src/amd/compare.py:AMD_pdist", "src/amd/compare.py:AMD_cdist", "src/amd/compare.py:PDD_pdist", "src/amd/compare.py:PDD_cdist"]}
{"id": "C105", "title": "A number of nearest neighbours below 1 is refused", "statement": "compare raises an exception for every n_neighbors below 1, and for all natural numbers does what is said elsewhere. By AMD it does raise ValueError for every negative number, and for 0 with two collections. It is false elsewhere: by AMD and 0 with one collection, a table without columns is returned (or IndexError raised if two crystals are at distance 0). By PDD with two collections a negative number silently counts from the end: with m crystals in the second, the m + n_neighbors nearest are listed. By PDD with one collection of m crystals, -1 and numbers from -m - 1 to -(m + 1)/2 give a table without columns, and between these a table with m + 2 n_neighbors columns if all distances are positive.", "quantifier": "all integers n_neighbors, all collections of valid crystals of any size, one or two, all k, all cells, all metrics that are not negative, all results that the sorting and searching functions may return by their contracts", "why_tests_cant": "There are infinitely many integers and collection sizes, and what happens depends on both: a slice with a negative end is cut twice, before and after the crystal itself is removed.", "anchors": ["src/amd/compare.py:compare", "src/amd/compare.py:_nearest_items", "src/amd/compare.py:_neighbors_from_distance_matrix", "src/amd/compare.py:_nearest_neighbors_dataframe"]}
{"id": "C106", "title": "A larger collapse tolerance never gives a PDD with more rows", "statement": "PDD with a larger collapse_tol has at most as many rows as with a smaller one. This is false: five points of a one-dimensional crystal have a PDD with two rows for the tolerance 3 and with three for 4. What holds: a PDD with collapsing has at most as many rows as without; a negative tolerance, -inf and nan collapse nothing; if all rows are within the tolerance of each other, and for inf always, one row remains, with the sum of the weights and the mean of the rows; two tolerances give the same PDD if no distance of two rows lies between them.", "quantifier": "all floats collapse_tol, including inf, -inf and nan, all valid crystals in any dimension, all k, both values of lexsort, all pairs of tolerances", "why_tests_cant": "The tolerance is any float, and the number of groups is not monotonic in it, because a row leaves its group when an earlier leader becomes close enough: tests on a few tolerances would suggest that it is.", "anchors": ["src/amd/calculate.py:PDD", "src/amd/calculate.py:_collapse_into_groups"]}
{"id": "C107", "title": "Collapsing rows hardly changes the matrix of compare", "statement": "If the same crystals are compared by PDD twice, with different collapse_tol or with and without collapse, no entry of the two matrices differs by more than four times the sum of the tolerances (a tolerance counts as 0 if it is negative or rows are not collapsed), times the constant of the metric (1 for the default, the root of k for euclidean, k for cityblock), up to the rounding of weights in EMD. So the default tolerance of 1e-4 changes no distance by more than 4e-4.", "quantifier": "all collections of valid crystals of any size, one or two, all cells, all k, all tolerances, all metrics bounded by a multiple of the default, all options for lexsort, jobs and backends, all schedules", "why_tests_cant": "The tolerance merges rows of chains that are not all close to each other, and the number of rows is not monotonic in it (C106); that the effect on distances is bounded for all crystals needs the triangle inequality of transport.", "anchors": ["src/amd/compare.py:compare", "src/amd/calculate.py:PDD", "src/amd/calculate.py:_collapse_into_groups", "src/amd/compare.py:PDD_pdist", "src/amd/compare.py:PDD_cdist"]}
{"id": "C108", "title": "Invariants of finite sets are continuous, scale and fit together", "statement": "If two finite sets of points, in spaces of any dimensions and listed in any order, can be matched so that no distance changes by more than d (for instance because no point moved by more than d/2), no entry of AMD_finite changes by more than d, and EMD of their PDD_finite is at most d, up to twice each tolerance used for collapsing and the rounding of weights in EMD. Scaling the points scales AMD_finite, and PDD_finite if collapse_tol is scaled too. PDD_to_AMD of PDD_finite is AMD_finite, collapsed or not, and the largest difference of AMDs is at most EMD of the PDDs, up to that rounding.", "quantifier": "all finite lists of points of any dimension, all orders, all tolerances and options, all scale factors", "why_tests_cant": "Continuity, scaling and the bounds are about all pairs of point sets; tests compare a few.", "anchors": ["src/amd/calculate.py:AMD_finite", "src/amd/calculate.py:PDD_finite", "src/amd/calculate.py:PDD_to_AMD", "src/amd/compare.py:EMD"]}
{"id": "C109", "title": "Moving crystals does not change compare; scaling them scales it", "statement": "If every crystal passed to compare is moved, turned or mirrored, each in its own way, the result is exactly the same, for AMD and PDD, every k, metric and option, with n_neighbors or without, including the exceptions. By AMD the same holds if motif points are listed in another order. If all crystals are scaled by a factor, the entries of the matrix are multiplied by it: exactly by AMD, and by PDD with collapse_tol scaled too, up to the rounding of weights in EMD.", "quantifier": "all crystals with any cell (also cells for which neighbours are missed), all rigid motions and scale factors, all options; for scaling all homogeneous metrics, among them chebyshev, euclidean and cityblock", "why_tests_cant": "Invariance of the whole function is about all motions of all inputs; tests compare invariants of a few crystals.", "anchors": ["src/amd/compare.py:compare", "src/amd/compare.py:AMD_pdist", "src/amd/compare.py:PDD_pdist", "src/amd/calculate.py:AMD", "src/amd/calculate.py:PDD"]}
{"id": "C110", "title": "The order of motif points hardly matters for comparisons by PDD", "statement": "With collapse=True the rows of PDD can depend on the order in which motif points are listed. This does not matter for distances: EMD of the PDDs of one crystal listed in two orders is at most four times collapse_tol, and listing the motifs of all crystals passed to compare by PDD in other orders changes no entry of the matrix by more than eight times collapse_tol, up to the rounding of weights in EMD. Without collapsing only that rounding remains.", "quantifier": "all crystals without an asymmetric unit, with any cell and at most 1e8 points, all orders, all k, tolerances and options, all metrics bounded by a multiple of the Chebyshev distance", "why_tests_cant": "The bound is for all orders of all motifs; tests try one order.", "anchors": ["src/amd/compare.py:compare", "src/amd/compare.py:EMD", "src/amd/calculate.py:PDD", "src/amd/calculate.py:_collapse_into_groups"]}
{"id": "C111", "title": "compare accepts any float as collapse_tol", "statement": "compare(..., collapse_tol=t) with t = nan, -inf or a negative number is exactly compare(..., collapse=False), with or without nearest neighbours and including exceptions. With t = inf the result is that of every large enough number; every PDD is then one row, and for crystals without an asymmetric unit the matrix by PDD is the matrix by AMD with the same metric, up to the rounding of costs in EMD.", "quantifier": "all floats, all collections of crystals, all options and metrics bounded by a multiple of the Chebyshev distance, all cells and k", "why_tests_cant": "Special values of floats meet all inputs and options; tests use numbers.", "anchors": ["src/amd/compare.py:compare", "src/amd/compare.py:PDD_pdist", "src/amd/compare.py:PDD_cdist", "src/amd/calculate.py:PDD"]}
{"id": "C112", "title": "The command accepts any float as --collapse_tol", "statement": "amd ... --collapse_tol X with X = nan, inf, infinity, -inf or +inf in any case and spelling (--collapse_tol=-inf, since -inf by itself looks like an option) behaves as compare with that float; the last tolerance on the command line counts. With nan or -inf nothing is collapsed, so by PDD the file has the distances of the PDDs of the infinite crystals up to the rounding of weights only. For every command line whose tolerance is a number nothing changes.", "quantifier": "all command lines (options in any order and spelling, paths, --), all floats, all files and options", "why_tests_cant": "Command lines have unboundedly many spellings; special floats are not tested by the project.", "anchors": ["src/amd/cli.py:main", "src/amd/compare.py:compare", "src/amd/calculate.py:PDD"]}
{"id": "C113", "title": "The nearest crystals of files are right for any metric", "statement": "compare(..., n_neighbors=n, metric=m) of CIF files or CSD entries: row i lists n crystals nearest to crystal i, nearest first, where the distance is that of the AMDs of the infinite crystals by m, or by PDD the Earth mover's distance of their PDDs by m, up to the rounding of weights and L times four times the tolerance for a metric at most L times the default. If another crystal listed is the same, the first distance is 0, or by PDD at most that bound.", "quantifier": "all metrics (by AMD those for which the library finds nearest items), all files, entries and backends, one or two collections, disorder skip or all_sites, all n the code accepts, all well-shaped cells and all cells for large k", "why_tests_cant": "Metrics, files and crystals are unbounded; tests use the default metric on a few.", "anchors": ["src/amd/compare.py:compare", "src/amd/compare.py:_nearest_items", "src/amd/io.py:CifReader", "src/amd/io.py:CSDReader"]}
{"id": "C114", "title": "Files of nearly the same crystal have a small distance by any metric", "statement": "compare of two collections with a metric that is at most L times the default one: if the points of two crystals can be paired off changing no distance by more than d, the entry is at most L * d; if the sites of one are those of the other displaced by at most e, at most 2 * L * e; if, moreover, the cell is strained by at most h, another L * h times the last entry of the AMD. By PDD up to the rounding of weights and 4 * L times the tolerance. For large k the entries by AMD are right for all cells.", "quantifier": "all metrics bounded by a multiple of the default (euclidean: sqrt k, cityblock: k), all files, entries and backends, disorder skip or all_sites, all displacements and strains", "why_tests_cant": "Crystals, perturbations and metrics form continua.", "anchors": ["src/amd/compare.py:compare", "src/amd/compare.py:AMD_cdist", "src/amd/compare.py:PDD_cdist", "src/amd/io.py:CifReader", "src/amd/io.py:CSDReader"]}
{"id": "C115", "title": "Coordinates written with few digits hardly change distances by any metric", "statement": "compare, by AMD or PDD, with a metric that is at most L times the default one, of files or entries whose coordinates and displacements are those of ideal crystals rounded by at most d: each entry differs from the distance by that metric of the invariants of the ideal crystals by at most L * 8 * d * (a + b + c) for each of the two crystals (by PDD also the rounding of weights and 4 * L times the collapse tolerance). So two files of one ideal crystal, written with different numbers of digits, have an entry that is at most that. For large k this holds for all cells.", "quantifier": "all metrics bounded by a multiple of the default (euclidean: sqrt k, cityblock: k), all ideal crystals, roundings, files, entries and backends", "why_tests_cant": "Crystals, roundings and metrics form continua.", "anchors": ["src/amd/compare.py:compare", "src/amd/compare.py:AMD_cdist", "src/amd/compare.py:PDD_cdist", "src/amd/io.py:CifReader", "src/amd/io.py:CSDReader"]}
