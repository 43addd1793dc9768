{"claims": [
{"property": "C01", "status": "partial", "theorems": ["Amd.C01_pdd_rows_explicit_partial", "Amd.C01_pdd_rows_of_searchable", "Amd.C01_pdd_rows_partial", "Amd.C01_pdd_rows_large_k_partial", "Amd.C01_pdd_rows_sound_partial", "Amd.C01_false", "Amd.C01_false_reduced"], "note": "Rows are exactly the k nearest for all k when the off-diagonal row sums of the Gram matrix of the cell are at most half the diagonal entry (HalfDominant), the motif fits the cell and D<=4; for every reduced (Niggli) cell of three dimensions and k + 1 at least the number of motif points; for every non-singular cell for all large k, explicitly bounded. For strongly skewed cells the code stops too early: C01_false is a concrete set. C01_false_reduced is a set with a reduced cell and fewer neighbours asked for than motif points, so that condition cannot be dropped."},
{"property": "C02", "status": "partial", "theorems": ["Amd.C02_false", "Amd.C02_amd_mean_explicit_partial", "Amd.C02_amd_mean_of_searchable", "Amd.C02_amd_mean_partial", "Amd.C02_amd_mean_large_k_partial", "Amd.C02_row_unique", "Amd.C02_row_exists"], "note": "AMD is the multiplicity-weighted mean of the true rows; same domain as C01, because it inherits C01_false."},
{"property": "C03", "status": "proved", "theorems": ["Amd.C03_amd_translation", "Amd.C03_pdd_translation"], "note": ""},
{"property": "C04", "status": "proved", "theorems": ["Amd.C04_amd_orthogonal", "Amd.C04_pdd_orthogonal"], "note": ""},
{"property": "C05", "status": "proved", "theorems": ["Amd.C05_amd_scaling", "Amd.C05_pdd_scaling", "Amd.C05_pdd_scaling_uncollapsed"], "note": "The collapse tolerance must be scaled too unless collapse=False."},
{"property": "C06", "status": "partial", "theorems": ["Amd.C06_amd_perm", "Amd.C06_pdd_perm", "Amd.C06_collapsed_false"], "note": "Proved for AMD and for uncollapsed PDDs; with collapse=True reordering the motif can change the rows (C06_collapsed_false), but hardly their distance (C110)."},
{"property": "C07", "status": "partial", "theorems": ["Amd.C07_amd_cell_choice_explicit_partial", "Amd.C07_amd_cell_choice_of_searchable", "Amd.C07_amd_cell_choice_partial", "Amd.C07_amd_cell_choice_large_k_partial", "Amd.C07_false"], "note": "Holds wherever C01 holds; false for a skewed cell of the same lattice (C07_false)."},
{"property": "C08", "status": "proved", "theorems": ["Amd.C08_amd_sorted", "Amd.C08_pdd_sorted"], "note": ""},
{"property": "C09", "status": "partial", "theorems": ["Amd.C09_amd_prefix_explicit_partial", "Amd.C09_amd_prefix_of_searchable", "Amd.C09_amd_prefix_partial", "Amd.C09_amd_prefix_large_k_partial", "Amd.C09_pdd_prefix_partial", "Amd.C09_false"], "note": "Holds wherever C01 holds; false for a skewed cell."},
{"property": "C10", "status": "proved", "theorems": ["Amd.C10_terminates", "Amd.C10_no_exception"], "note": "For every non-singular cell."},
{"property": "C100", "status": "proved", "theorems": ["Amd.C100_metrics", "Amd.C100_amd_two", "Amd.C100_amd", "Amd.C100_within", "Amd.C100_pdd_two", "Amd.C100_pdd"], "note": "For all cells, right or wrong as the computed invariants may be. C100_metrics is under the contract that scipy names mean these distances. C100_within: the bound on PDDs that the theorems by PDD ask for always exists."},
{"property": "C101", "status": "partial", "theorems": ["Amd.C101_natural", "Amd.C101_pdd", "Amd.C101_amd_partial", "Amd.C101_false", "Amd.C101_compare"], "note": "False of AMD: AMD of the integers on a line with k=-2 returns [1] (C101_false). C101_amd_partial says for which k it raises and how long the list is otherwise. Proved of PDD and compare. Contract: partition of numpy takes positions from the end and raises ValueError outside of the row."},
{"property": "C102", "status": "proved", "theorems": ["Amd.C102_amd", "Amd.C102_pdd", "Amd.C102_pdd_large"], "note": "The metric is symmetric, not negative and zero for equal lists, as all metrics of C96 are. By AMD with low_memory only for the default metric, since with another metric that raises. By PDD exact for periodic sets of fewer than 10000 points and else up to twice the rounding of weights (C100_within gives the bounds)."},
{"property": "C103", "status": "partial", "theorems": ["Amd.C103_amd", "Amd.C103_pdd_partial", "Amd.C103_amd_more", "Amd.C103_pdd_more_partial"], "note": "Complete by AMD, for all metrics for which sklearn keeps its contract (KnnContract; for other metrics than the default this is a hypothesis). By PDD missing is the largest n, for which compare raises ValueError (C38_false)."},
{"property": "C104", "status": "proved", "theorems": ["Amd.C104_read_first", "Amd.C104_twice_amd", "Amd.C104_twice_pdd"], "note": "C104_twice_pdd is for periodic sets of fewer than 10000 points, where EMD is exact; for larger ones C102_pdd_large bounds the difference. Metrics of compare(x, x) are symmetric and triangle-obeying (RowMetric), the default is one."},
{"property": "C105", "status": "partial", "theorems": ["Amd.C105_natural", "Amd.C105_amd_partial", "Amd.C105_false_amd", "Amd.C105_false_pdd_two", "Amd.C105_false_pdd"], "note": "Proved by AMD for negative numbers and for 0 with two collections. False elsewhere: C105_false_amd, C105_false_pdd_two and C105_false_pdd say what is returned instead of an exception. Contracts: argpartition takes positions from the end and raises ValueError outside of the row, np.array of rows of different lengths raises ValueError, scikit-learn raises ValueError below 1 neighbour."},
{"property": "C106", "status": "partial", "theorems": ["Amd.C106_number", "Amd.C106_nothing", "Amd.C106_one", "Amd.C106_inf", "Amd.C106_fewer_partial", "Amd.C106_same_partial", "Amd.C106_false"], "note": "The title claim is false: C106_false. Proved instead: what the extreme tolerances do, that collapsing never adds rows, and that tolerances without a distance of two rows between them give the same PDD. Finite tolerances are real numbers."},
{"property": "C107", "status": "proved", "theorems": ["Amd.C107_one", "Amd.C107_two"], "note": "For all cells: no completeness of the search for neighbours is needed. n and C bound the numbers of rows and the distances in the PDDs; they only enter through the rounding of weights."},
{"property": "C108", "status": "proved", "theorems": ["Amd.C108_moved", "Amd.C108_amd", "Amd.C108_emd", "Amd.C108_amd_scaling", "Amd.C108_pdd_scaling", "Amd.C108_mean", "Amd.C108_lower", "Amd.C108_returns"], "note": "EMD needs weights of at least 1e-8, so at most 1e8 points there. Over the reals, as everywhere for distances."},
{"property": "C109", "status": "proved", "theorems": ["Amd.C109_rigid", "Amd.C109_reordered", "Amd.C109_metrics", "Amd.C109_amd_two", "Amd.C109_amd_one", "Amd.C109_pdd_two", "Amd.C109_pdd_one"], "note": "Over the reals, as everywhere for distances. Scaling: matrices only, and low_memory off for AMD."},
{"property": "C11", "status": "proved", "theorems": ["Amd.C11_nearest_neighbors", "Amd.C11_amd", "Amd.C11_pdd", "Amd.C11_generators"], "note": "Module state as an explicit state machine; every reachable state. Single-threaded."},
{"property": "C110", "status": "proved", "theorems": ["Amd.C110_pdd", "Amd.C110_two", "Amd.C110_one"], "note": "Over the reals, as everywhere for distances. For named metrics see C96."},
{"property": "C111", "status": "proved", "theorems": ["Amd.C111_number", "Amd.C111_nothing", "Amd.C111_inf", "Amd.C111_amd_two", "Amd.C111_amd_one"], "note": "With an asymmetric unit the one row is the mean of the rows without multiplicities, so not the AMD (C17_false). Finite tolerances are real numbers."},
{"property": "C112", "status": "partial", "theorems": ["Amd.C112_number", "Amd.C112_writes_partial", "Amd.C112_nothing_partial", "Amd.C112_negative", "Amd.C112_pdd_two_partial", "Amd.C112_pdd_partial"], "note": "Missing as for C95: --nearest has no effect (C40_false), and distances are right for cells that are not too oblique for k."},
{"property": "C113", "status": "partial", "theorems": ["Amd.C113_amd_partial", "Amd.C113_amd_two_partial", "Amd.C113_amd_large_k_partial", "Amd.C113_amd_two_large_k_partial", "Amd.C113_pdd_partial", "Amd.C113_pdd_two_partial", "Amd.C113_pdd_large_k_partial", "Amd.C113_pdd_two_large_k_partial", "Amd.C113_sites_amd_partial", "Amd.C113_sites_amd_two_partial", "Amd.C113_sites_amd_large_k_partial", "Amd.C113_sites_amd_two_large_k_partial", "Amd.C113_sites_pdd_partial", "Amd.C113_sites_pdd_two_partial", "Amd.C113_sites_pdd_large_k_partial", "Amd.C113_sites_pdd_two_large_k_partial"], "note": "As C94, whose default metric is here any metric. For all cells for large k. Missing: cells that are too oblique for a small k, and by PDD as many neighbours as there are candidates, for which the code fails (C38)."},
{"property": "C114", "status": "partial", "theorems": ["Amd.C114_amd_partial", "Amd.C114_amd_large_k_partial", "Amd.C114_pdd_partial", "Amd.C114_pdd_large_k_partial", "Amd.C114_sites_amd_partial", "Amd.C114_sites_amd_large_k_partial", "Amd.C114_sites_pdd_partial", "Amd.C114_sites_pdd_large_k_partial"], "note": "As C92 and C93, whose default metric is here any metric that is bounded by a multiple of it. For all cells for large k. Missing: cells that are too oblique for a small k; low_memory, with which other metrics raise."},
{"property": "C115", "status": "partial", "theorems": ["Amd.C115_amd_two_partial", "Amd.C115_amd_two_large_k_partial", "Amd.C115_amd_partial", "Amd.C115_amd_large_k_partial", "Amd.C115_pdd_two_partial", "Amd.C115_pdd_two_large_k_partial", "Amd.C115_pdd_partial", "Amd.C115_pdd_large_k_partial"], "note": "As C98, whose default metric is here any metric that is bounded by a multiple of it; C98_false shows that the bound on rounding is needed. Missing: molecular_centres, all_sites, and cells that are too oblique for k (proved for large k); low_memory, with which other metrics raise."},
{"property": "C12", "status": "proved", "theorems": ["Amd.C12_layer_exact", "Amd.C12_layers_partition", "Amd.C12_concentric_cloud"], "note": ""},
{"property": "C13", "status": "proved", "theorems": ["Amd.C13_same_distances", "Amd.C13_cloud", "Amd.C13_indices"], "note": "argpartition/argsort enter through their contract (ArgContract), so every tie-breaking is covered."},
{"property": "C14", "status": "proved", "theorems": ["Amd.C14_weights", "Amd.C14_weights_full_motif"], "note": ""},
{"property": "C15", "status": "proved", "theorems": ["Amd.C15_lexsort"], "note": ""},
{"property": "C16", "status": "partial", "theorems": ["Amd.C16_groups_partial", "Amd.C16_grouping_is_the_model", "Amd.C16_false_merged", "Amd.C16_false_close"], "note": "The exact grouping is proved; the stronger claims that all rows within tolerance are merged and that merged rows are pairwise close are false."},
{"property": "C17", "status": "partial", "theorems": ["Amd.C17_uncollapsed_partial", "Amd.C17_full_motif_partial", "Amd.C17_collapsed_bound_partial", "Amd.C17_false"], "note": "Exact without collapsing or with equal weights; within 2*tol otherwise; C17_false shows equality fails."},
{"property": "C18", "status": "partial", "theorems": ["Amd.C18_false", "Amd.C18_asym_unit_explicit_partial", "Amd.C18_asym_unit_of_searchable", "Amd.C18_asym_unit_partial", "Amd.C18_asym_unit_large_k_partial"], "note": "Holds wherever C01 holds; false for skewed cells with small k (the _false theorem)."},
{"property": "C19", "status": "proved", "theorems": ["Amd.C19_pdd_finite", "Amd.C19_pdd_finite_options", "Amd.C19_amd_finite"], "note": ""},
{"property": "C20", "status": "proved", "theorems": ["Amd.C20_amd_finite_isometry", "Amd.C20_pdd_finite_isometry", "Amd.C20_amd_finite_perm", "Amd.C20_pdd_finite_perm"], "note": ""},
{"property": "C21", "status": "proved", "theorems": ["Amd.C21_last_column"], "note": "Also: rows have equal positive length and no earlier column reaches the bound. Any run that returns; C56 is about whether it does."},
{"property": "C22", "status": "proved", "theorems": ["Amd.C22_volume", "Amd.C22_nonneg", "Amd.C22_pos", "Amd.C22_scaling", "Amd.C22_supercell", "Amd.C22_same_set"], "note": "Exact arithmetic; every dimension n >= 1."},
{"property": "C23", "status": "proved", "theorems": ["Amd.C23_estimate", "Amd.C23_increasing"], "note": ""},
{"property": "C24", "status": "partial", "theorems": ["Amd.C24_diameter", "Amd.C24_diameter_1D_partial", "Amd.C24_false_1D"], "note": "Proved in dimensions 2 and 3; in dimension 1 for a non-negative entry; for a negative 1x1 cell diameter returns a negative number (C24_false_1D)."},
{"property": "C25", "status": "partial", "theorems": ["Amd.C25_cell", "Amd.C25_snap", "Amd.C25_roundtrip", "Amd.C25_exists", "Amd.C25_false_flat", "Amd.C25_inverse"], "note": "The returned cell has the requested parameters; angle within eps of 90 is snapped (C25_snap bounds it). The claim that impossible or degenerate parameters raise is false for exactly flat cells (C25_false_flat)."},
{"property": "C26", "status": "proved", "theorems": ["Amd.C26_roundtrip", "Amd.C26_inverse"], "note": ""},
{"property": "C27", "status": "proved", "theorems": ["Amd.C27_entries", "Amd.C27_sums", "Amd.C27_cost"], "note": "Weights at least 1e-8 that sum to 1 (EMD_input_of_PDD: true of every PDD of at most 1e8 points); unbounded integers."},
{"property": "C28", "status": "proved", "theorems": ["Amd.C28_optimal", "Amd.C28_exact", "Amd.EMD_input_of_PDD", "Amd.EMD_default_metric"], "note": "Full network simplex with its threaded spanning tree arrays; any metric of rows; unbounded integers."},
{"property": "C29", "status": "proved", "theorems": ["Amd.C29_nonneg", "Amd.C29_self", "Amd.C29_isometric"], "note": ""},
{"property": "C30", "status": "proved", "theorems": ["Amd.C30_symmetric", "Amd.C30_symmetric_large"], "note": ""},
{"property": "C31", "status": "proved", "theorems": ["Amd.C31_triangle", "Amd.C31_exact_false"], "note": "C31_exact_false: without the rounding error the inequality is false."},
{"property": "C32", "status": "proved", "theorems": ["Amd.C32_amd_lower_bound", "Amd.C32_exact_false"], "note": "C32_exact_false: without the rounding error the inequality is false."},
{"property": "C33", "status": "proved", "theorems": ["Amd.C33_terminates", "Amd.C33_unique", "Amd.C33_columns"], "note": "Termination through strongly feasible spanning trees: the rule for leaving edges keeps them strongly feasible, so no tree occurs twice."},
{"property": "C34", "status": "proved", "theorems": ["Amd.C34_rows", "Amd.C34_reordered", "Amd.C34_lexsort", "Amd.C34_exact_false"], "note": "C34_exact_false: without the rounding error it is false: splitting a row in three changes the distance."},
{"property": "C35", "status": "partial", "theorems": ["Amd.C35_chebyshev", "Amd.C35_cdist", "Amd.C35_pdist_partial", "Amd.C35_pdist_list", "Amd.C35_metric", "Amd.C35_low_memory_metric", "Amd.C35_false"], "note": "AMD_pdist with low_memory raises ValueError for a list of AMDs, which is documented as accepted (C35_false). Everything else is proved."},
{"property": "C36", "status": "proved", "theorems": ["Amd.C36_cdist_schedule", "Amd.C36_pdist_schedule", "Amd.C36_cdist", "Amd.C36_pdist", "Amd.C36_cdist_raises"], "note": "Every completion order of the parallel tasks; joblib returns the results in submission order."},
{"property": "C37", "status": "proved", "theorems": ["Amd.C37_inputs", "Amd.C37_refcodes", "Amd.C37_single", "Amd.C37_amd", "Amd.C37_amd_two", "Amd.C37_amd_metric", "Amd.C37_pdd", "Amd.C37_pdd_two", "Amd.C37_schedule", "Amd.C37_raises_by", "Amd.C37_raises_input", "Amd.C37_raises_empty", "Amd.C37_raises_item", "Amd.C37_raises_refcodes"], "note": "Readers are parameters (their model is in Reader); names need not be distinct. Fuel stands for unbounded loops."},
{"property": "C38", "status": "partial", "theorems": ["Amd.C38_amd", "Amd.C38_amd_two", "Amd.C38_pdd_partial", "Amd.C38_pdd_two_partial", "Amd.C38_false", "Amd.C38_false_two"], "note": "Complete by AMD. By PDD all n but the largest: for n equal to the number of other crystals compare raises ValueError (C38_false)."},
{"property": "C39", "status": "partial", "theorems": ["Amd.C39_reader_options", "Amd.C39_verbose", "Amd.C39_routes", "Amd.C39_ignored", "Amd.C39_false"], "note": "p, metric_params and families are documented but ignored (C39_false); every keyword that reaches a function is proved to reach it unchanged."},
{"property": "C40", "status": "partial", "theorems": ["Amd.C40_options_partial", "Amd.C40_keywords_partial", "Amd.C40_false", "Amd.C40_false_matrix", "Amd.C40_raises", "Amd.C40_outpath"], "note": "--nearest is accepted but has no effect (C40_false); all other options are proved to arrive."},
{"property": "C41", "status": "proved", "theorems": ["Amd.C41_list", "Amd.C41_list_events", "Amd.C41_read", "Amd.C41_next", "Amd.C41_next_stop", "Amd.C41_raises"], "note": "Converters and parsers are parameters; a filter turning warnings into exceptions excluded (C41_raises says what happens otherwise)."},
{"property": "C42", "status": "partial", "theorems": ["Amd.C42_shown_partial", "Amd.C42_silent", "Amd.C42_filters_partial", "Amd.C42_history_partial", "Amd.C42_false_skipped", "Amd.C42_false_global"], "note": "show_warnings=False installs a process-wide ignore filter: a later reader with show_warnings=True stays silent (C42_false_global)."},
{"property": "C43", "status": "proved", "theorems": ["Amd.C43_parse", "Amd.C43_cache"], "note": "Exact rational numbers instead of doubles."},
{"property": "C44", "status": "partial", "theorems": ["Amd.C44_images", "Amd.C44_orbit", "Amd.C44_distinct", "Amd.C44_chain", "Amd.C44_cover_partial", "Amd.C44_false"], "note": "Tolerance equality is not transitive, so an image may have no equivalent in the motif (C44_false); it always has one through a chain (C44_chain), and directly where tolerance equality is transitive on the images (C44_cover_partial)."},
{"property": "C45", "status": "proved", "theorems": ["Amd.C45_orbits", "Amd.C45_types", "Amd.C45_every_site"], "note": ""},
{"property": "C46", "status": "proved", "theorems": ["Amd.C46_skip_rejects", "Amd.C46_skip_accepts", "Amd.C46_ordered", "Amd.C46_all", "Amd.C46_ase_skip_rejects", "Amd.C46_ase_skip_accepts", "Amd.C46_ase_ordered", "Amd.C46_ase_all", "Amd.C46_pmg_skip_rejects", "Amd.C46_pmg_skip_accepts", "Amd.C46_pmg_ordered", "Amd.C46_pmg_all"], "note": "For the gemmi, ase and pymatgen backends; numbers in the table are readable. ase and pymatgen do not count hydrogens that are removed."},
{"property": "C47", "status": "proved", "theorems": ["Amd.C47_removed", "Amd.C47_accepted", "Amd.C47_ase_removed", "Amd.C47_ase_accepted", "Amd.C47_pmg_removed", "Amd.C47_pmg_accepted"], "note": "For the gemmi, ase and pymatgen backends. With gemmi and disorder=skip a disordered hydrogen still leads to rejection. ase and pymatgen know the elements only from type symbols (C63_false_hydrogens)."},
{"property": "C48", "status": "partial", "theorems": ["Amd.C48_cell_partial", "Amd.C48_coordinates_partial", "Amd.C48_occupancy_partial", "Amd.C48_false_coordinates", "Amd.C48_false_occupancy", "Amd.C48_false_cell"], "note": "'?' and '.' are read as 0: unknown coordinates put a site at the origin, an unknown occupancy counts as disorder, an unknown length gives a flat cell."},
{"property": "C49", "status": "partial", "theorems": ["Amd.C49_uncertainty_partial", "Amd.C49_plain_partial", "Amd.C49_false"], "note": "Every numeral with or without uncertainty; '?' and '.' are read as the number 0 (C49_false)."},
{"property": "C50", "status": "partial", "theorems": ["Amd.C50_true_partial", "Amd.C50_complete", "Amd.C50_false"], "note": "The code combines the two directions by or: {0,1/2} and {1/4,0} with period 1 are found equal (C50_false)."},
{"property": "C51", "status": "partial", "theorems": ["Amd.C51_false", "Amd.C51_continuity_explicit_partial", "Amd.C51_continuity_of_searchable", "Amd.C51_continuity_partial", "Amd.C51_continuity_large_k_partial"], "note": "Holds wherever C01 holds; false for skewed cells with small k (the _false theorem)."},
{"property": "C52", "status": "proved", "theorems": ["Amd.C52_two_circles", "Amd.C52_three_spheres"], "note": ""},
{"property": "C53", "status": "proved", "theorems": ["Amd.C53_families", "Amd.C53_arguments"], "note": "The database search is a parameter."},
{"property": "C54", "status": "proved", "theorems": ["Amd.C54_neighbours", "Amd.C54_amd", "Amd.C54_pdd"], "note": "Every dimension, every non-singular cell; through lattice point counting."},
{"property": "C55", "status": "partial", "theorems": ["Amd.C55_random_cell_partial", "Amd.C55_random_cell_2D", "Amd.C55_false"], "note": "In 3D the retry loop catches RuntimeError while the conversion raises ValueError, so random_cell can raise (C55_false)."},
{"property": "C56", "status": "partial", "theorems": ["Amd.C56_terminates_partial", "Amd.C56_false"], "note": "The search always ends, but for one point in the unit square the lookup after it raises IndexError (C56_false)."},
{"property": "C57", "status": "partial", "theorems": ["Amd.C57_real_distances_partial", "Amd.C57_rows_partial", "Amd.C57_false"], "note": "False for a two-point motif in a 4x3 rectangle: two neighbours at distance sqrt 89 are missing from rows ending at 10. Proved when no returned distance exceeds one already seen in the first three layers."},
{"property": "C58", "status": "proved", "theorems": ["Amd.C58_directory", "Amd.C58_path"], "note": ""},
{"property": "C59", "status": "proved", "theorems": ["Amd.C59_rejected"], "note": ""},
{"property": "C60", "status": "proved", "theorems": ["Amd.C60_reconstruct", "Amd.C60_off_lattice"], "note": "The loops of _neighbor_set and its uninitialised array are modelled; k-d tree order is a parameter. The lattice points checked for the Voronoi condition are those of the layers before the first one with no point within the diameter (LayersReach)."},
{"property": "C61", "status": "proved", "theorems": ["Amd.C61_terminates"], "note": "Non-singular cells; any contents of uninitialised memory."},
{"property": "C62", "status": "partial", "theorems": ["Amd.C62_two_circles", "Amd.C62_three_spheres_partial", "Amd.C62_false"], "note": "Complete in the plane. In space a point on a segment between two of the four centres is missed (C62_false), found otherwise."},
{"property": "C63", "status": "partial", "theorems": ["Amd.C63_ase_partial", "Amd.C63_pmg_partial", "Amd.C63_false_hydrogens", "Amd.C63_false_occupancy", "Amd.C63_false_disordered_hydrogen", "Amd.C63_false_single_site"], "note": "Proved for tables with type symbols, known occupancies, listed symmetry operations and no disordered hydrogens that are removed with skip; false without these conditions (theorems C63_false_*). What the packages make of the text of the file is a parameter."},
{"property": "C64", "status": "partial", "theorems": ["Amd.C64_pmg_partial", "Amd.C64_gemmi_partial", "Amd.C64_false_ase", "Amd.C64_false_gemmi"], "note": "ase: missing cell data raises ValueError and stops the reader. gemmi: unreadable numbers raise ValueError. pymatgen: all of these are ParseErrors."},
{"property": "C65", "status": "partial", "theorems": ["Amd.C65_amd_of_searchable", "Amd.C65_amd_explicit_partial", "Amd.C65_points", "Amd.C65_once", "Amd.C65_asym_unit", "Amd.C65_description", "Amd.C65_amd_partial", "Amd.C65_amd_large_k_partial", "Amd.C65_pdd_partial", "Amd.C65_pdd_large_k_partial"], "note": "Points, single listing and asymmetric unit proved in full; the AMD and PDD for cells that are not too oblique, or for large k (C07_false)."},
{"property": "C66", "status": "partial", "theorems": ["Amd.C66_amd_of_searchable", "Amd.C66_pdd_of_searchable", "Amd.C66_emd_of_searchable", "Amd.C66_amd_explicit_partial", "Amd.C66_pdd_explicit_partial", "Amd.C66_emd_explicit_partial", "Amd.C66_amd_partial", "Amd.C66_amd_large_k_partial", "Amd.C66_pdd_partial", "Amd.C66_pdd_large_k_partial", "Amd.C66_emd_partial", "Amd.C66_emd_third_partial", "Amd.C66_false"], "note": "Proved for cells that are not too oblique and contain the motif, in dimension at most 4, and for all cells and dimensions for large k; false for skewed cells (C66_false)."},
{"property": "C67", "status": "proved", "theorems": ["Amd.C67_collapse", "Amd.C67_collapse_third"], "note": ""},
{"property": "C68", "status": "partial", "theorems": ["Amd.C68_empty", "Amd.C68_ok", "Amd.C68_points_partial", "Amd.C68_description_partial", "Amd.C68_amd_partial", "Amd.C68_explicit_partial", "Amd.C68_false"], "note": "Proved if get_basis reduces by the stored operations (by nothing if none are stored). False for Atoms objects without a stored space group and with symmetry (C68_false). What get_basis returns is an assumption about ase."},
{"property": "C69", "status": "partial", "theorems": ["Amd.C69_types_partial", "Amd.C69_false"], "note": "Proved if the atoms are listed orbit by orbit; false otherwise (C69_false)."},
{"property": "C70", "status": "partial", "theorems": ["Amd.C70_ase_partial", "Amd.C70_ase_false", "Amd.C70_ase_again", "Amd.C70_pymatgen_partial", "Amd.C70_pymatgen_false", "Amd.C70_pymatgen_again", "Amd.C70_ccdc_false"], "note": "False: hydrogens and partly occupied sites are removed from the object that was passed. Unchanged without these options; converting again gives the same result."},
{"property": "C71", "status": "partial", "theorems": ["Amd.C71_skip", "Amd.C71_ordered_structure", "Amd.C71_ordered_sites_partial", "Amd.C71_no_disorder", "Amd.C71_ordered_sites_false", "Amd.C71_all_sites_false"], "note": "'skip' proved without hydrogen removal; 'ordered_sites' for sites of one species. False for sites shared by several species, and 'all_sites' never returns a set for a structure with disorder. Assumed: atomic_numbers of pymatgen raises for sites that are not ordered, and the symmetry analysis keeps occupancies."},
{"property": "C72", "status": "partial", "theorems": ["Amd.C72_ase", "Amd.C72_pymatgen_partial", "Amd.C72_pymatgen_false", "Amd.C72_ccdc_partial", "Amd.C72_ccdc_false"], "note": "ase: proved. ccdc: all hydrogens are removed; also atoms with an empty symbol, which refutes the rest. pymatgen: proved for sites of one species without oxidation state; false for hydrogen with an oxidation state."},
{"property": "C73", "status": "partial", "theorems": ["Amd.C73_description", "Amd.C73_amd_partial", "Amd.C73_explicit_partial", "Amd.C73_large_k_partial"], "note": "Assumed: the symmetry analysis returns an isometric crystal. Proved for cells that are not too oblique, reduced cells with as many neighbours as points, and all cells for large k."},
{"property": "C74", "status": "partial", "theorems": ["Amd.C74_skip", "Amd.C74_atoms_partial", "Amd.C74_entry", "Amd.C74_coordinates_false"], "note": "False for atoms without coordinates, which are removed with a warning instead of the documented ParseError, and for the empty symbol. The objects of ccdc are modelled by their attributes."},
{"property": "C75", "status": "partial", "theorems": ["Amd.C75_heaviest_partial", "Amd.C75_single", "Amd.C75_false"], "note": "Proved if all weights are known; otherwise a TypeError."},
{"property": "C76", "status": "partial", "theorems": ["Amd.C76_centres", "Amd.C76_false"], "note": "Proved for geometric centres. False for centres of mass, which the documentation promises."},
{"property": "C77", "status": "partial", "theorems": ["Amd.C77_empty", "Amd.C77_missing_cell", "Amd.C77_accepted", "Amd.C77_cell", "Amd.C77_points", "Amd.C77_description", "Amd.C77_amd_partial", "Amd.C77_types"], "note": "Cell and symmetry are what the attributes of the crystal denote. The AMD needs the explicit condition on the number of neighbours. If the heaviest component is wanted, atomic weights are known. Assumed: the symmetry operations form a space group and images that differ are further apart than the tolerance."},
{"property": "C78", "status": "proved", "theorems": ["Amd.C78_cubic_points", "Amd.C78_cubic", "Amd.C78_hexagonal_2D", "Amd.C78_hexagonal_3D", "Amd.C78_hexagonal_other"], "note": "For every scale greater than 0."},
{"property": "C79", "status": "partial", "theorems": ["Amd.C79_random_3D_partial", "Amd.C79_random_2D", "Amd.C79_random_other", "Amd.C79_false"], "note": "In three dimensions proved for angle bounds within 60 to 120 degrees; false otherwise. Random numbers are arbitrary streams."},
{"property": "C80", "status": "partial", "theorems": ["Amd.C80_elements", "Amd.C80_accepted", "Amd.C80_disordered", "Amd.C80_empty", "Amd.C80_cell", "Amd.C80_points", "Amd.C80_once", "Amd.C80_types", "Amd.C80_amd_partial"], "note": "From the texts of the block, with no function of the reader in the hypotheses. The points need operations that form a space group and images further apart than the tolerance; 'each once' is not for 'all_sites' (C89); the AMD needs the explicit bound on k. Angles within 2^-45 degrees of 90 are excluded unless equal to 90. The names of space groups known to gemmi are a parameter."},
{"property": "C81", "status": "partial", "theorems": ["Amd.C81_accurate", "Amd.C81_cancellation", "Amd.C81_rows_of_accurate_partial", "Amd.C81_rows_partial", "Amd.C81_terminates", "Amd.C81_exact", "Amd.C81_amd_partial", "Amd.C81_pdd_partial", "Amd.C81_isometric_partial"], "note": "Standard model of rounding: each operation has a relative error of at most u; no overflow or underflow. Sums in any order, with or without fused multiply-add. Termination holds for every non-singular cell; the error bounds need the explicit bound on k of C01 (Covered). Collapsing of rows and EMD: see C82."},
{"property": "C82", "status": "partial", "theorems": ["Amd.C82_range", "Amd.C82_pdd_terminates", "Amd.C82_pdd_partial", "Amd.C82_emd_terminates_partial", "Amd.C82_emd_partial", "Amd.C82_isometric_partial"], "note": "Rounding as in C81, and monotone. The true distances are at most k times the length of a cell vector (C82_range), so that the bounds are explicit. Motifs of at most about 9000 points in double precision, so that weights are resolved in units of 1e-8. Missing: cells that are too oblique for the number of neighbours; overflow and underflow; metrics other than the default."},
{"property": "C83", "status": "partial", "theorems": ["Amd.C83_amd_unique", "Amd.C83_pdd_unique", "Amd.C83_amd_partial", "Amd.C83_amd_two_partial", "Amd.C83_amd_large_k_partial", "Amd.C83_raises", "Amd.C83_pdd_partial", "Amd.C83_pdd_two_partial", "Amd.C83_pdd_large_k_partial"], "note": "Entries need cells that are not too oblique for k, or large k. Blocks must be written as C80 requires, have operations that form a space group and at most 1e8 points, and no two different points within the tolerance of the reader. Parsing of files by the packages is a parameter."},
{"property": "C84", "status": "partial", "theorems": ["Amd.C84_no_overflow_partial", "Amd.C84_terminates_partial", "Amd.C84_optimal_partial", "Amd.C84_rounded_partial", "Amd.C84_isometric_partial", "Amd.C84_false"], "note": "The condition on the sum of distances is needed: C84_false shows PDDs at distance 3.5e10 whose EMD is 0 because 3 * (largest cost) overflows. Node numbers and sizes of arrays are natural numbers. C84_rounded_partial and C84_isometric_partial have the conditions of C82."},
{"property": "C85", "status": "partial", "theorems": ["Amd.C85_displaced", "Amd.C85_isometric", "Amd.C85_amd_partial", "Amd.C85_amd_explicit_partial", "Amd.C85_amd_large_k_partial", "Amd.C85_emd_partial", "Amd.C85_emd_explicit_partial", "Amd.C85_emd_large_k_partial", "Amd.C85_rounded_partial", "Amd.C85_amd_rounded_partial", "Amd.C85_false"], "note": "C85_emd_*, C85_amd_*: for the searches that C01 covers (HalfDominant up to 4 dimensions, Covered, or k large). C85_false: two cells of one lattice, one of them very oblique. The plan of transport is a limit of counts in growing balls, so no common cell is needed."},
{"property": "C86", "status": "partial", "theorems": ["Amd.C86_amd_lower", "Amd.C86_amd_partial", "Amd.C86_amd_explicit_partial", "Amd.C86_amd_large_k_partial", "Amd.C86_diameter", "Amd.C86_pdd_lower", "Amd.C86_pdd_partial", "Amd.C86_pdd_explicit_partial", "Amd.C86_pdd_large_k_partial", "Amd.C86_tight", "Amd.C86_false"], "note": "The lower bounds hold for every non-singular cell and every k. The upper bounds hold for the searches that C01 covers (HalfDominant up to 4 dimensions, Covered, or k large); C86_false: a motif point far from the unit cell. C86_tight: the constant 1/2 is best possible. The number of points in a ball is compared with its volume."},
{"property": "C87", "status": "partial", "theorems": ["Amd.C87_gemmi", "Amd.C87_ase_partial", "Amd.C87_ase_removed", "Amd.C87_pymatgen_partial", "Amd.C87_pymatgen_removed", "Amd.C87_agree", "Amd.C87_amd_partial", "Amd.C87_pdd_partial", "Amd.C87_large_k_partial", "Amd.C87_false_ase", "Amd.C87_false_pymatgen"], "note": "Proved in full for gemmi. With ase and pymatgen, remove_hydrogens=True and disorder='skip', an entry whose only disordered sites are hydrogens is accepted (C87_false_*), while gemmi rejects it; *_removed say what is read then. Entries must have type symbols for ase and pymatgen (C63 covers those without). AMD and PDD need cells that are not too oblique for k, or large k. What a package makes of the text of a file is a parameter, described by GemmiHolds, AseHolds and PmgHolds."},
{"property": "C88", "status": "proved", "theorems": ["Amd.C88_cif", "Amd.C88_csd", "Amd.C88_csd_unknown", "Amd.C88_csd_rejected", "Amd.C88_silent", "Amd.C88_csd_shown"], "note": "Hydrogens that are removed may be disordered with ase, pycodcif and pymatgen (then the block is read, unlike with gemmi: C87_false_ase). Crystals must have operations that form a space group and no two different points within the tolerance. Warnings must not be turned into errors by filters of the process. Parsing of files by the packages, and the CSD, are parameters."},
{"property": "C89", "status": "proved", "theorems": ["Amd.C89_gemmi", "Amd.C89_ase", "Amd.C89_pymatgen", "Amd.C89_ccdc", "Amd.C89_cif", "Amd.C89_csd"], "note": "Operations must form a space group, and no two different images of one site may be within the tolerance; images of different sites may be anywhere. Parsing of files by the packages, and the CSD, are parameters. Types are in the theorems about the conversions."},
{"property": "C90", "status": "partial", "theorems": ["Amd.C90_description", "Amd.C90_isometric", "Amd.C90_paired", "Amd.C90_amd_of_searchable", "Amd.C90_amd_same_of_searchable", "Amd.C90_amd_partial", "Amd.C90_amd_explicit_partial", "Amd.C90_amd_large_k_partial", "Amd.C90_amd_near_partial", "Amd.C90_pdd_of_searchable", "Amd.C90_pdd_partial", "Amd.C90_pdd_explicit_partial", "Amd.C90_pdd_large_k_partial", "Amd.C90_emd_of_searchable", "Amd.C90_emd_partial", "Amd.C90_emd_large_k_partial", "Amd.C90_times", "Amd.C90_false"], "note": "Proved for cells that are not too oblique and contain the motif, in dimension at most 4, and for all cells and dimensions for large k; false for skewed cells (C90_false)."},
{"property": "C91", "status": "partial", "theorems": ["Amd.C91_times", "Amd.C91_amd_unique", "Amd.C91_pdd_unique", "Amd.C91_amd_two_partial", "Amd.C91_amd_partial", "Amd.C91_amd_large_k_partial", "Amd.C91_raises", "Amd.C91_pdd_two_partial", "Amd.C91_pdd_partial", "Amd.C91_pdd_large_k_partial"], "note": "Proved for cells that are not too oblique for k, and for all cells for large k; the metric is Chebyshev (the default; others: C96)."},
{"property": "C92", "status": "partial", "theorems": ["Amd.C92_amd", "Amd.C92_pdd", "Amd.C92_sites_amd", "Amd.C92_sites_pdd", "Amd.C92_moved", "Amd.C92_sites_moved", "Amd.C92_compare_amd_partial", "Amd.C92_compare_pdd_partial", "Amd.C92_compare_amd_large_k_partial", "Amd.C92_sites_compare_amd_partial", "Amd.C92_sites_compare_pdd_partial"], "note": "The statements about invariants and displaced sites are complete; those about compare are proved for cells that are not too oblique for k (for all cells for large k: AMD here, PDD in C114); the metric is Chebyshev (the default; others: C114)."},
{"property": "C93", "status": "partial", "theorems": ["Amd.C93_set_amd_partial", "Amd.C93_set_emd_partial", "Amd.C93_set_large_k_partial", "Amd.C93_amd", "Amd.C93_pdd", "Amd.C93_sites_amd", "Amd.C93_sites_pdd", "Amd.C93_remeasured", "Amd.C93_sites_remeasured", "Amd.C93_parameters", "Amd.C93_last", "Amd.C93_sites_last", "Amd.C93_compare_amd_partial", "Amd.C93_compare_pdd_partial", "Amd.C93_compare_amd_large_k_partial", "Amd.C93_sites_compare_amd_partial", "Amd.C93_sites_compare_pdd_partial"], "note": "The statements about the invariants of the crystals described are complete; those about what AMD, PDD and compare return are proved for cells that are not too oblique for k (AMD: for all cells for large k, where the bound is that of the last entry); the metric is Chebyshev (the default; others: C114)."},
{"property": "C94", "status": "partial", "theorems": ["Amd.C94_amd_partial", "Amd.C94_amd_two_partial", "Amd.C94_amd_large_k_partial", "Amd.C94_pdd_partial", "Amd.C94_pdd_two_partial", "Amd.C94_sites_amd_partial", "Amd.C94_sites_amd_two_partial", "Amd.C94_sites_amd_large_k_partial", "Amd.C94_sites_pdd_partial", "Amd.C94_sites_pdd_two_partial"], "note": "Distances are right for cells that are not too oblique for k (for all cells for large k: AMD, one collection here, the rest in C113); n is smaller than the number of candidates for PDD, as the code fails otherwise (C38_false); the metric is Chebyshev (the default; others: C113)."},
{"property": "C95", "status": "partial", "theorems": ["Amd.C95_parses", "Amd.C95_runs", "Amd.C95_writes_partial", "Amd.C95_no_paths", "Amd.C95_separated", "Amd.C95_separator", "Amd.C95_refused", "Amd.C95_unknown_partial", "Amd.C95_negative", "Amd.C95_amd_partial", "Amd.C95_amd_two_partial", "Amd.C95_pdd_partial", "Amd.C95_pdd_two_partial"], "note": "Not modelled: a value -- that is joined to the name of its option. A collapse tolerance that is nan or inf: C112. With a negative k no file is written (C95_negative, from C101). Other metrics, and all cells for large k: C96. --nearest is passed on but has no effect (C40_false). Distances are right for cells that are not too oblique for k."},
{"property": "C96", "status": "partial", "theorems": ["Amd.C96_names", "Amd.C96_metrics", "Amd.C96_exact", "Amd.C96_amd_two_partial", "Amd.C96_amd_partial", "Amd.C96_pdd_two_partial", "Amd.C96_pdd_partial", "Amd.C96_sites_amd_two_partial", "Amd.C96_sites_amd_partial", "Amd.C96_sites_pdd_two_partial", "Amd.C96_sites_pdd_partial", "Amd.C96_command_amd_partial", "Amd.C96_command_pdd_partial", "Amd.C96_amd_two_large_k_partial", "Amd.C96_amd_large_k_partial", "Amd.C96_pdd_two_large_k_partial", "Amd.C96_pdd_large_k_partial", "Amd.C96_sites_amd_two_large_k_partial", "Amd.C96_sites_amd_large_k_partial", "Amd.C96_sites_pdd_two_large_k_partial", "Amd.C96_sites_pdd_large_k_partial", "Amd.C96_command_amd_two_large_k_partial", "Amd.C96_command_amd_large_k_partial", "Amd.C96_command_pdd_two_large_k_partial", "Amd.C96_command_pdd_large_k_partial"], "note": "Distances are right for cells that are not too oblique for k, and for all cells for large k. That the names euclidean and cityblock stand for these distances is a contract of scipy (ScipyNames)."},
{"property": "C97", "status": "partial", "theorems": ["Amd.C97_filter_two", "Amd.C97_filter", "Amd.C97_amd_distances", "Amd.C97_pdd_distances", "Amd.C97_shrinks", "Amd.C97_more_amd_two_partial", "Amd.C97_more_amd_partial", "Amd.C97_more_pdd_two_partial", "Amd.C97_more_pdd_partial", "Amd.C97_sites_more_amd_two_partial", "Amd.C97_sites_more_amd_partial", "Amd.C97_sites_more_pdd_two_partial", "Amd.C97_sites_more_pdd_partial", "Amd.C97_more_amd_two_large_k_partial", "Amd.C97_more_amd_large_k_partial", "Amd.C97_more_pdd_two_large_k_partial", "Amd.C97_more_pdd_large_k_partial", "Amd.C97_sites_more_amd_two_large_k_partial", "Amd.C97_sites_more_amd_large_k_partial", "Amd.C97_sites_more_pdd_two_large_k_partial", "Amd.C97_sites_more_pdd_large_k_partial"], "note": "The bound of PDD by AMD and the triangle inequality are complete: they hold for all crystals, whether or not the search for neighbours is complete. Growth with k is proved for cells that are not too oblique for the smaller k, and for all cells from some k on."},
{"property": "C98", "status": "partial", "theorems": ["Amd.C98_read_partial", "Amd.C98_csd_partial", "Amd.C98_amd_two_partial", "Amd.C98_amd_partial", "Amd.C98_pdd_two_partial", "Amd.C98_pdd_partial", "Amd.C98_false", "Amd.C98_amd_two_large_k_partial", "Amd.C98_amd_large_k_partial", "Amd.C98_pdd_two_large_k_partial", "Amd.C98_pdd_large_k_partial"], "note": "Missing: molecular_centres=True, disorder=all_sites, and entries of compare for cells that are too oblique for a small k. Different points of the ideal crystal must be further apart than the tolerance of the readers plus rounding, and matrices of operations have entries between -1 and 1, as in every conventional setting. C98_false: with two digits the site on a threefold axis is read as three points."},
{"property": "C99", "status": "partial", "theorems": ["Amd.C99_sequential", "Amd.C99_warm_partial", "Amd.C99_repeated_partial", "Amd.C99_false", "Amd.C99_raises"], "note": "C99_sequential is C11 for the finer model with generator objects and tee objects. C99_warm_partial and C99_repeated_partial: any interleaving, if calls of the same size (or the same calls) were made before. C99_false: two threads, empty caches, the AMD (2, 2) is returned as (2, 4), because both tee the same generator. C99_raises: a thread advances a generator that another is running."}
]}
