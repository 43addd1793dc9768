# Formal model of dwiddo/average-minimum-distance

Everything is in `lean/Verif`. The Python package is in `/repo/src/amd`; it was only read.

## Layout

* `Verif/Spec/*`: small specifications, independent of the model.
* `Verif/Model/*`: the model, function by function; each definition cites file and lines of `/repo`.
* `Verif/Proof/*`: helper lemmas.
* `Verif/Props/*`: property theorems, named after the property ids of `properties.jsonl`, with an `example` beside them that a concrete case meets the hypotheses.
* `MANIFEST.json`: which theorems state which property, and what is missing. `AXIOMS.tsv`: the axioms of each of these theorems, from `#print axioms`.
* `seeded/LOG.jsonl`: wrong programs that were tried against the theorems.

## Conventions

* Floating point numbers are real numbers (exact rationals where text is parsed, or elements of an arbitrary ordered ring where only `+ - * <` are used). Rounding,
  overflow and signed zeros are not modelled, except that C81 and C82 treat the rounding of operations in `nearest_neighbors`, `AMD`, `PDD` and `EMD` (`Model/Rounding.lean`, `Model/RoundingEmd.lean`), and C84 overflow of the integers in `EMD` (`Model/EmdInt64.lean`). `nan` and `inf` are modelled where texts of CIFs are read (`PyFloat`) and as the collapse tolerance (C106, C111, C112), and nowhere else.
* Exceptions are values (`Except`), `None` is `Option`, unbounded loops are functions of a fuel. For each such loop there is a theorem "whatever the fuel, a value that is
  returned is right" and, where true, "from some fuel on a value is returned".
* Functions of numpy, scipy, joblib and sklearn are represented by their documented contract. Where the contract leaves a choice (ties in `argpartition`, the schedule of
  joblib, the order of a k-d tree, uninitialised memory, random numbers), the choice is a parameter, and theorems hold for all values of it.
* numba's `njit` is taken to preserve the meaning of Python, except that a division by zero raises.
* State is explicit: the caches of lattice layers, the memo table of the parser, the process-wide filters of `warnings`, the objects that converters change.
* Where the code does not have a property, the strongest part that holds is proved (suffix `_partial`) together with a theorem `..._false` that gives a concrete counterexample
  in the model.
* Names: `C01_...` is a theorem about property C01; `..._of_...` and unnumbered theorems are lemmas.

## Plan per property

* C01 PDD rows list the true k nearest neighbours (partial). Model of the lattice layers, batches, cloud, merging and `nearest_neighbors`. False for skewed cells (the search stops after one layer of integer norm without nearer points). Proved under `Searchable`: each later layer has a vector at least as near as any beyond. This is derived for cells that are not too oblique (`HalfDominant`, `DominantBy`), for reduced (Niggli) cells of three dimensions by a case analysis on signs and Selling parameters, and for every cell for many neighbours with an explicit bound. A second negation has a reduced cell and a small k.
* C02 AMD is the multiplicity-weighted mean of neighbour distances (partial). Mean of the rows of C01; a skewed cell as counterexample for small k.
* C03 Translation invariance (proved). Each step of the algorithm commutes with translations; no use of C01.
* C04 Rotation and reflection invariance (proved). As C03, with orthogonal maps.
* C05 Scaling (proved). As C03, with scaling of squared distances.
* C06 Motif order is irrelevant (partial). Permutations through every step.
* C07 Independence of unit cell and motif choice (partial). C01 and a bijection of sites under change of cell, by counting orbits.
* C08 Distances are non-negative and ordered (proved). Invariant of merging.
* C09 k only truncates (partial). Uniqueness of the row of C01.
* C10 AMD and PDD terminate (proved). Lower bound of |nA| by |n| for a non-singular cell: layers become too distant.
* C11 History independence of the lattice caches (proved). Heap of iterators and both dictionaries; invariant over all histories.
* C12 Lattice shells are exact (proved). Invariant of the `ymax` table, reflections, lexicographic order of combinations.
* C13 Neighbour data are consistent (proved). As C01, with indices into the cloud.
* C14 PDD weights are a probability distribution (proved). Finite sums.
* C15 Lexsort only reorders (proved). `lexsort` is a permutation.
* C16 Row collapsing groups (partial). Specification of the groups by the loop; negations for the stronger readings.
* C17 PDD_to_AMD(PDD) equals AMD (partial). Linear algebra of weighted means; error bound.
* C18 Asymmetric unit gives the same invariants as the full motif (partial). C01 and invariance of rows under symmetries; a skewed cell as counterexample for small k.
* C19 Finite AMD/PDD list all other points (proved). Finite sets.
* C20 Finite invariants are isometry invariant (proved). Finite sets.
* C21 PDD_reconstructable reaches twice the diameter (proved). Postcondition of the loop.
* C22 Point packing coefficient (proved). Closed form against the volume of the ball in Mathlib.
* C23 AMD_estimate (proved). Closed form.
* C24 Cell diameter (partial). A maximum over vertices bounds the diameter (convexity).
* C25 Cell parameters round-trip (3D) (partial). Real trigonometry.
* C26 Cell parameters round-trip (2D) (proved). Real trigonometry.
* C27 EMD transport plan is feasible (proved). Network simplex with its tree arrays; the invariant of pivots.
* C28 EMD is optimal (proved). Duality at termination; rounding of weights bounded.
* C29 EMD identity and positivity (proved). From C27, C28.
* C30 EMD symmetry (proved). From C28: optimal values of transposed problems.
* C31 EMD triangle inequality (proved). Gluing of plans, up to rounding.
* C32 AMD distance is a lower bound of EMD (proved). Jensen for the Chebyshev distance.
* C33 EMD terminates (proved). Trees stay strongly feasible, so that no basis repeats.
* C34 EMD ignores row order and row splitting (proved). Optimal value depends only on the measure.
* C35 AMD_pdist/AMD_cdist entries and low_memory (partial). Index arithmetic.
* C36 PDD_pdist/PDD_cdist are schedule independent (proved). Schedules as permutations.
* C37 compare() returns a symmetric labelled distance matrix (proved). Model of `compare`, data frames as labelled matrices.
* C38 compare(n_neighbors=n) returns the n nearest other crystals (partial). Contracts of `argpartition`, `argsort`, `kneighbors`.
* C39 compare() routes keyword arguments (partial). Keyword arguments as dictionaries.
* C40 CLI options take effect (partial). argparse namespace to keyword arguments.
* C41 Readers yield exactly the valid crystals in order (proved). Reader as a state machine.
* C42 Reader warnings (partial). Process-wide filters of `warnings`.
* C43 Symmetry operation strings (proved). Parser on lists of characters; memo table.
* C44 Expanding the asymmetric unit (partial). Sites modulo the lattice with tolerance.
* C45 Multiplicities, asymmetric unit indices and types (proved). Counts and indices of orbits.
* C46 Disorder handling (proved). Table of sites, for the three backends.
* C47 Hydrogen removal (proved). As C46.
* C48 Missing data (partial). As C46, with `PyFloat`.
* C49 Number parsing (partial). Grammar of numerals and parser.
* C50 Motif equality check (partial). Boolean logic of the check.
* C51 Continuity (partial). C01 and Lipschitz bounds of order statistics; a skewed cell as counterexample for small k.
* C52 Reconstruction steps are sound (proved). Algebra of sphere intersections.
* C53 Refcode families are de-duplicated in order (proved). Lists.
* C54 Asymptotics of neighbour distances (proved). Counting lattice points.
* C55 random_cell always returns a cell within bounds (partial). Streams of draws.
* C56 PDD_reconstructable returns (partial). Loop of `nearest_neighbors_minval`, then the lookup.
* C57 Rows of PDD_reconstructable are true neighbour distances (partial). As C01 for that loop.
* C58 Reading a directory (proved). Fold over the files.
* C59 Invalid reader options are rejected before reading (proved). Order of the checks.
* C60 A reconstructed motif fits the PDD (proved). Soundness of the search for points.
* C61 reconstruct comes to an end (proved). Fuel bound for all loops of the reconstruction.
* C62 A sphere intersection step finds a point if there is one (partial). Completeness of the intersection.
* C63 Backends agree (partial). The three converters on the same table.
* C64 Files that cannot be read are skipped (partial). Exceptions of the converters and the handler of the reader.
* C65 A crystal read from a CIF is the crystal the CIF describes (partial). Space groups (Spec/SpaceGroup): the motif of the reader has exactly the points of the crystal, once each, and its asymmetric unit is one.
* C66 Isometry invariance of AMD and PDD (partial). C07 and C04 for arbitrary isometries and descriptions.
* C67 Collapsing moves a PDD by at most twice the tolerance (proved). Moving mass to a group costs at most its radius.
* C68 An ase Atoms object is converted to the crystal it represents (partial). As C65; `get_basis` of ase is a parameter with a contract.
* C69 Atomic types of a converted ase Atoms object (partial). Lists.
* C70 Converting an object does not change it (partial). Objects before and after.
* C71 Disorder in pymatgen structures (partial). Lists of sites.
* C72 remove_hydrogens removes exactly the hydrogens of an object (partial). Lists of atoms.
* C73 A pymatgen Structure is converted to the crystal it represents (partial). C66; the symmetry analysis of pymatgen is a parameter with a contract.
* C74 Atoms and disorder in ccdc crystals (partial). Lists of atoms.
* C75 heaviest_component keeps the heaviest component (partial). `argmax`.
* C76 molecular_centres gives one point per molecule (partial). Unique sites of the centres.
* C77 A ccdc Crystal is converted to the crystal it represents (partial). As C65.
* C78 Cubic and hexagonal lattices (proved). Shortest vectors of the lattices.
* C79 Random periodic sets (partial). Streams of draws.
* C80 A written CIF block is read as written (partial). The grammar of numbers and triplets (C41, C42) joined with C46, C47 and C65; `Spec/Written.lean` says what a block means.
* C81 Rounding errors stay small (partial). The search with computed numbers as parameters; an invariant that follows computed and true distances together.
* C82 Rounding errors of PDD distances stay small (partial). The pivots work on integers, so the theorem on `network_simplex` applies to rounded input; the rest is how transport cost depends on costs and weights.
* C83 Comparing CIF files of the same crystal finds distance 0 (partial). C37, C41, C80, C65 and C66 joined; cells with the same lengths and angles are related by an isometry. `Spec/CifCompare.lean` says which crystal a block describes and what its AMD and PDD are.
* C84 Machine integers do not overflow in EMD (partial). A second model of `_emd.py` in which each operation wraps around; a refinement proof: as long as the costs sum to at most 1e18, potentials stay within three times this sum (a path in the tree) and each state is the state of the unbounded model, reduced modulo 2^64.
* C85 Continuity under any small displacement (partial). Pairs counted in growing balls give a transport plan between the motifs; C82 for rounding.
* C86 AMD_estimate is near AMD (partial). Unit cells around the points tile space; compare the number of points in a ball with its volume.
* C87 Each backend of CifReader reads the crystal that is written (partial). An entry is the written text, apart from any package (`Spec/CifEntry.lean`); each block that holds it is turned into a block of gemmi that is read alike (C63), and C80 is applied. False for disordered hydrogens with ase and pymatgen.
* C88 Readers give the crystals that are described (proved). C87 and C77 for each item, joined with the iteration of `_Reader` (C41); `Spec/Described.lean` says what a described crystal is.
* C89 disorder='all_sites' keeps every site (proved). The expansion of sites is a concatenation of blocks, one for each site (`assemble_all`); `Spec/AllSites.lean` says what a set that lists orbits is. Then as C87 and C88.
* C90 AMD and PDD of sets that list points more than once (partial). `Spec/Repeated.lean` counts how often each point is listed. An isometry that preserves the counts pairs off sites; a pairing of sites gives a transport plan between the motifs (as C85), which compares means of rows.
* C91 Comparing files and refcodes with disorder='all_sites' (partial). `Spec/AllSitesCompare.lean` gives the invariants of a crystal by how often each point is listed. The set that is read is a listing in the sense of C90 (`Proof/ListsOrbits.lean`: orbits are carried onto each other by symmetries, so points of an orbit have the same neighbours), with the right counts; `Proof/Compared.lean` has the comparison for any notion of a description, also used for C83.
* C92 Files of nearly the same crystal have a small distance (partial). A pairing of the points (listed points) of two descriptions gives a pairing of the sites of the sets that are read, so the plan of C85 and C90 bounds both invariants (`Proof/DescribedNear.lean`); C83 and C91 carry this to `compare`. Displaced sites: the map that sends an image of a site to the same image of the displaced site is a bijection because the same images coincide, and moves points as far as the site because operations are isometries.
* C93 Invariants change little when the cell is strained (partial). A strain is a linear map with |d(Ap,Aq) - d(p,q)| <= h d(p,q) (`Spec/Strain.lean`). It pairs the sites of the two sets, each sorted row changes by at most h times its entries plus d (counting, as in C25), and means and the pairing plan give AMD and EMD (`Proof/Strain.lean`). For two cells the map sends edge vectors to edge vectors; for half-dominant cells the strain is at most 2Dθ if edge vectors change by a fraction θ.
* C94 compare with n_neighbors lists the nearest crystals that the files describe, and so finds duplicates (partial). C38 (the table has the nearest items for the computed invariants) is composed with the reading of files and entries (C83, C91) for any notion of a description (`Proof/Nearest.lean`). `FirstDist` (`Spec/NearestTable.lean`) is the entry of DIST 1.
* C95 The command line does what it says: from arguments to the file that is written (partial). `Model/CliParse.lean` models the parser that main builds (options, types, choices, defaults) and the part of argparse that it uses: exact names, =, unique prefixes, short options with joined values, negative numbers, one group of positional arguments, `--`. `Spec/CommandLine.lean` says what a command line means, without reference to the parser. Induction over the options; then C83 gives the matrix. The model agreed with the standard library argparse (Python 3.11) on 3000 random command lines, and on 3000 more with `--` and negative k.
* C96 compare with another metric gives distances of the crystals by that metric (partial). `Spec/Metrics.lean` defines the Euclidean and the city block distance and the class of metrics that are at most L times the Chebyshev distance. The exact EMD by such a metric is at most L times the exact EMD by the default metric (any plan shows it). The theorems of C83 and C91 are proved again with the metric as parameter; the collapse error is multiplied by L.
* C97 Matrices of compare fit together: AMD bounds PDD, distances obey the triangle inequality and grow with k (partial). AMD is the mean of the rows of the PDD that the code finds (C17), so C32 gives the bound by PDD, and C31 the triangle inequality, for the invariants that are computed, right or wrong. For growth with k: the PDD of an infinite crystal for a smaller k has the first columns of that for a larger k (weights of rows are pushed forward), a plan of transport for the larger k is one for the smaller k, and C96 connects entries with exact distances.
* C98 Coordinates written with few digits are read as the ideal crystal, up to rounding (partial). `Spec/Rounded.lean` says what it means that sites, operations and a set are rounded. The expansion of the asymmetric unit is run on the rounded and on the ideal sites side by side: every comparison with the tolerance has the same outcome, so both runs keep the same images. Displaced points change distances by at most twice the displacement.
* C99 AMD and PDD may be called from several threads (partial). `Model/Threads.lean`: each read or write of a cache, each tee and the two halves of next are steps of a program; threads take steps in any order. One thread alone: invariant of buffers, iterator positions and caches. Several threads: each has a claim (an object it owns, a generator it is running); a step keeps the claims of the others, so each thread can be reasoned about alone.
* C100 Matrices of compare by different metrics are ordered (proved). The cost of every plan is at most L times its cost by the other metric, so the same is true of the minima; both calls compute the same AMDs and PDDs.
* C101 A negative number of neighbours is refused (partial). A second model of the search with k an integer: a slice with a negative end keeps the smallest entries, a merge never reads outside of a row since the distance of a point to itself comes first, and entries never grow, so a layer is too far in the end. For natural numbers it is the first model.
* C102 The distance of two crystals does not depend on the company (proved). Each entry of each kind of result is the distance of the AMDs or PDDs of its two crystals (C37), in one of the two orders; EMD is symmetric (C30) and zero for equal PDDs (C29); C03 and C04 for crystals that are moved.
* C103 Tables of nearest neighbours agree with the matrix (partial). C37 and C38 with the same AMDs and PDDs; the c-th smallest of a list does not depend on how it is found (pigeonhole).
* C104 How crystals are passed to compare does not matter (proved). The keys of the readers occur in none of the other dictionaries; the rest from C102 with the same crystal at the same place.
* C105 A number of nearest neighbours below 1 is refused (partial). A second model of the tables with n_neighbors an integer, equal to the first for natural numbers; the length of a slice with a negative end is computed, the crystal itself is in the slice if it is the only one at distance 0.
* C106 A larger collapse tolerance never gives a PDD with more rows (partial). A second model of PDD whose tolerance may be inf, -inf or nan, equal to the first for numbers; every float has the effect of some number. Counterexample computed over the integers.
* C107 Collapsing rows hardly changes the matrix of compare (proved). Both PDDs are compared with the uncollapsed one (C67, C106), then the triangle inequality of exact transport is used twice.
* C108 Invariants of finite sets are continuous, scale and fit together (proved). Sorting is 1-Lipschitz in the largest difference (counting how many entries lie below each bound); then the uncollapsed rows are matched one by one and the triangle inequality of exact transport is used as for C107.
* C109 Moving crystals does not change compare; scaling them scales it (proved). The search for neighbours commutes with maps that multiply all lengths (C06), so the invariants of each crystal are equal or scaled; compare depends on crystals only through names and invariants. Exact transport scales with the ground distance.
* C110 The order of motif points hardly matters for comparisons by PDD (proved). Uncollapsed PDDs of the two lists have the same rows (C06), each collapsed PDD is near its uncollapsed one (C107), and exact transport obeys the triangle inequality.
* C111 compare accepts any float as collapse_tol (proved). compareTol models compare with any float as the tolerance; it depends on the tolerance through the PDDs only, so C106 applies to each crystal; for inf a bound is taken over all crystals. Transport between single rows costs their distance.
* C112 The command accepts any float as --collapse_tol (partial). `Model/CliTol.lean` is the command with the tolerance as any float. The parser is that of C95, so its lemmas are reused; the namespace is read with the tolerance apart. compare is that of C111.
* C113 The nearest crystals of files are right for any metric (partial). The tables of C38 and C103 for any metric, joined with the distances of described crystals of C96. The contract of the library that finds nearest items is a hypothesis for the metric.
* C114 Files of nearly the same crystal have a small distance by any metric (partial). C96 gives entries as distances of the exact invariants by the metric; these are at most L times the distances by the default metric, which C92 and C93 bound.
* C115 Coordinates written with few digits hardly change distances by any metric (partial). C98 bounds the distance by the default metric between invariants read and ideal invariants; the metric is at most L times that, and the triangle inequality does the rest.

Properties that the model cannot express, and that are therefore not in the list: accuracy of floating point results (beyond C28, C81, C82), running time and memory, what the progress bars and
`__repr__` print, the internals of gemmi, ase, pymatgen, ccdc, pandas, and the content of files written by pandas.

## What is modelled

| file of `/repo/src/amd` | model | functions |
|---|---|---|
| `_nearest_neighbors.py` | `Lattice`, `NearestNeighbors`, `NeighborsData`, `Minval`, `Cache`, `Threads` (iterator objects, steps of several threads) | all |
| `calculate.py` | `Calculate`, `Minval` (`PDD_reconstructable`), `PPC`, `Rounding`, `RoundingEmd` (with rounded operations), `Tolerance` (any float as `collapse_tol`), `IntegerK` (any integer `k`) | all |
| `_emd.py` | `EMD`, `RoundingEmd` (with rounded operations), `EmdInt64` (with `int64`) | all |
| `compare.py` | `Compare` (`EMD`), `Pairwise`, `CompareFn`, `CompareTol` (any float as `collapse_tol`), `CifCompare` (paths and refcodes read with the models of `CifReader` and `CSDReader`) | all |
| `utils.py` | `Utils` | all |
| `periodicset.py` | `Calculate` (`PeriodicSet`), `EqualMotif`, `Constructors` | `__init__` (stores its arguments), `_equal_cell_and_motif`, `cubic`, `hexagonal`, `_random`; not `__str__`, `__repr__` |
| `io.py` | `Reader`, `CifText`, `Sites`, `GemmiBlock`, `CifBlocks`, `Objects` | all but `_custom_warning` (text of warnings) and `_snap_small_prec_coords` (never called) |
| `reconstruct.py` | `Reconstruct` | all |
| `cli.py` | `CompareFn`, `CliParse`, `IntegerK`, `CliTol` (any float as tolerance) | `main` with the parts of argparse that it uses (not a value `--` joined to the name of its option); not the printing of the frame, messages and help |

Parameters, that is, things that are not modelled but quantified over, with what is assumed of them:

* `GemmiEnv`, `AseEnv`, `PmgEnv`: values for tags, operations of named space groups. Nothing is assumed; C63 compares backends for tables on which they agree.
* `basis` (ase `get_basis`): C68 assumes that it returns one site of each orbit under the stored operations. `C68_false` shows what happens if it finds symmetry that is not stored.
* `conventional` (pymatgen): C73 assumes an isometric crystal; C71 that it keeps occupancies.
* `CifBackends`: what each package returns for each path, that is, the events (blocks, warnings, errors) for a file or directory. C83, C87 and C88 assume that blocks hold the written entries (`GemmiHolds`, `AseHolds`, `PmgHolds`).
* `CcdcPackage`: csd-python-api, that is, which suffixes it reads, the entries of a file, the entry for a refcode, all entries of the CSD and the search for families. C83 and C88 assume for the entries that they describe crystals (`CcdcDescribes`).
* `CcdcEnv`: C77 assumes that the asymmetric unit and the operations describe the crystal. C74, C75 assume nothing.
* `Env` of `compare`: the readers; distances of scipy other than Chebyshev; contracts of the sorting functions of numpy and sklearn (any result that partitions or sorts).
* Warnings: all actions other than `ignore` and `error` show a warning.
* Memory that `np.empty` returns: arbitrary (`Reconstruct`, `EMD`).
* `itertools.tee` and threads (`Model/Threads.lean`): `tee` of an object made by `tee` gives that object and a copy with the same buffer, `tee` of a generator gives two objects with a new buffer; reads and writes of dictionaries, `tee` and taking a layer from a buffer are atomic (as with the global interpreter lock), while another thread may run between the start of a generator and its `yield`.
* Random numbers: any streams of numbers within the bounds.

Simplifications that are visible in results: an infinite cell parameter or coordinate in a CIF gives an error in the model while the code computes with it; ASCII digits and
white space only; integers are unbounded, except in `Model/EmdInt64.lean`, where those of `_emd.py` wrap around at 2^64; C84 proves when this makes no difference.

## Trusted base

* Lean 4.33.0: its kernel. No `sorry`, no `native_decide`, no `bv_decide`, no axioms of our own.
* Axioms: only `propext`, `Classical.choice` and `Quot.sound`; `AXIOMS.tsv` lists them for each theorem in the manifest.
* Definitions of Mathlib that occur in statements (reals, trigonometric functions, measure of balls, linear independence, finite sums).
* That the model says what the Python text says: this was done by hand, and the comments cite the lines.
* The contracts of libraries listed above.

## Wrong programs

`seeded/LOG.jsonl` has one line for each edit of a definition that was tried in a scratch copy. `proofs_that_failed` are the proofs that Lean rejected first;
`property_theorems_depending_on_them` are the property theorems whose proofs rest on these, which therefore do not build either. That a proof fails does not show by itself that
the theorem has become false: the proof could fail for a reason of form. Where the first failures did not reach the property that the edit breaks, a second
run replaced the failing lemmas by `sorry` in the scratch copy, to see whether the property theorem itself is rejected (`second_run`). Edits believed to break no property are
marked as controls. Theorems that turned out too weak were tightened; the log says which.
