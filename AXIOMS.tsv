theorem	axioms
Amd.C01_pdd_rows_explicit_partial	propext, Classical.choice, Quot.sound
Amd.C01_pdd_rows_of_searchable	propext, Classical.choice, Quot.sound
Amd.C01_pdd_rows_partial	propext, Classical.choice, Quot.sound
Amd.C01_pdd_rows_large_k_partial	propext, Classical.choice, Quot.sound
Amd.C01_pdd_rows_sound_partial	propext, Classical.choice, Quot.sound
Amd.C01_false	propext, Classical.choice, Quot.sound
Amd.C01_false_reduced	propext, Classical.choice, Quot.sound
Amd.C02_false	propext, Classical.choice, Quot.sound
Amd.C02_amd_mean_explicit_partial	propext, Classical.choice, Quot.sound
Amd.C02_amd_mean_of_searchable	propext, Classical.choice, Quot.sound
Amd.C02_amd_mean_partial	propext, Classical.choice, Quot.sound
Amd.C02_amd_mean_large_k_partial	propext, Classical.choice, Quot.sound
Amd.C02_row_unique	propext, Classical.choice, Quot.sound
Amd.C02_row_exists	propext, Classical.choice, Quot.sound
Amd.C03_amd_translation	propext, Classical.choice, Quot.sound
Amd.C03_pdd_translation	propext, Classical.choice, Quot.sound
Amd.C04_amd_orthogonal	propext, Classical.choice, Quot.sound
Amd.C04_pdd_orthogonal	propext, Classical.choice, Quot.sound
Amd.C05_amd_scaling	propext, Classical.choice, Quot.sound
Amd.C05_pdd_scaling	propext, Classical.choice, Quot.sound
Amd.C05_pdd_scaling_uncollapsed	propext, Classical.choice, Quot.sound
Amd.C06_amd_perm	propext, Classical.choice, Quot.sound
Amd.C06_pdd_perm	propext, Classical.choice, Quot.sound
Amd.C06_collapsed_false	propext, Classical.choice, Quot.sound
Amd.C07_amd_cell_choice_explicit_partial	propext, Classical.choice, Quot.sound
Amd.C07_amd_cell_choice_of_searchable	propext, Classical.choice, Quot.sound
Amd.C07_amd_cell_choice_partial	propext, Classical.choice, Quot.sound
Amd.C07_amd_cell_choice_large_k_partial	propext, Classical.choice, Quot.sound
Amd.C07_false	propext, Classical.choice, Quot.sound
Amd.C08_amd_sorted	propext, Classical.choice, Quot.sound
Amd.C08_pdd_sorted	propext, Classical.choice, Quot.sound
Amd.C09_amd_prefix_explicit_partial	propext, Classical.choice, Quot.sound
Amd.C09_amd_prefix_of_searchable	propext, Classical.choice, Quot.sound
Amd.C09_amd_prefix_partial	propext, Classical.choice, Quot.sound
Amd.C09_amd_prefix_large_k_partial	propext, Classical.choice, Quot.sound
Amd.C09_pdd_prefix_partial	propext, Classical.choice, Quot.sound
Amd.C09_false	propext, Classical.choice, Quot.sound
Amd.C10_terminates	propext, Classical.choice, Quot.sound
Amd.C10_no_exception	propext, Classical.choice, Quot.sound
Amd.C100_metrics	propext, Classical.choice, Quot.sound
Amd.C100_amd_two	propext, Classical.choice, Quot.sound
Amd.C100_amd	propext, Classical.choice, Quot.sound
Amd.C100_within	propext, Classical.choice, Quot.sound
Amd.C100_pdd_two	propext, Classical.choice, Quot.sound
Amd.C100_pdd	propext, Classical.choice, Quot.sound
Amd.C101_natural	propext, Classical.choice, Quot.sound
Amd.C101_pdd	propext, Classical.choice, Quot.sound
Amd.C101_amd_partial	propext, Classical.choice, Quot.sound
Amd.C101_false	propext, Classical.choice, Quot.sound
Amd.C101_compare	propext, Classical.choice, Quot.sound
Amd.C102_amd	propext, Classical.choice, Quot.sound
Amd.C102_pdd	propext, Classical.choice, Quot.sound
Amd.C102_pdd_large	propext, Classical.choice, Quot.sound
Amd.C103_amd	propext, Classical.choice, Quot.sound
Amd.C103_pdd_partial	propext, Classical.choice, Quot.sound
Amd.C103_amd_more	propext, Classical.choice, Quot.sound
Amd.C103_pdd_more_partial	propext, Classical.choice, Quot.sound
Amd.C104_read_first	propext, Classical.choice, Quot.sound
Amd.C104_twice_amd	propext, Classical.choice, Quot.sound
Amd.C104_twice_pdd	propext, Classical.choice, Quot.sound
Amd.C105_natural	propext, Classical.choice, Quot.sound
Amd.C105_amd_partial	propext, Classical.choice, Quot.sound
Amd.C105_false_amd	propext, Classical.choice, Quot.sound
Amd.C105_false_pdd_two	propext, Classical.choice, Quot.sound
Amd.C105_false_pdd	propext, Classical.choice, Quot.sound
Amd.C106_number	propext, Classical.choice, Quot.sound
Amd.C106_nothing	propext, Classical.choice, Quot.sound
Amd.C106_one	propext, Classical.choice, Quot.sound
Amd.C106_inf	propext, Classical.choice, Quot.sound
Amd.C106_fewer_partial	propext, Classical.choice, Quot.sound
Amd.C106_same_partial	propext, Classical.choice, Quot.sound
Amd.C106_false	propext, Classical.choice, Quot.sound
Amd.C107_one	propext, Classical.choice, Quot.sound
Amd.C107_two	propext, Classical.choice, Quot.sound
Amd.C108_moved	propext, Classical.choice, Quot.sound
Amd.C108_amd	propext, Classical.choice, Quot.sound
Amd.C108_emd	propext, Classical.choice, Quot.sound
Amd.C108_amd_scaling	propext, Classical.choice, Quot.sound
Amd.C108_pdd_scaling	propext, Classical.choice, Quot.sound
Amd.C108_mean	propext, Classical.choice, Quot.sound
Amd.C108_lower	propext, Classical.choice, Quot.sound
Amd.C108_returns	propext, Classical.choice, Quot.sound
Amd.C109_rigid	propext, Classical.choice, Quot.sound
Amd.C109_reordered	propext, Classical.choice, Quot.sound
Amd.C109_metrics	propext, Classical.choice, Quot.sound
Amd.C109_amd_two	propext, Classical.choice, Quot.sound
Amd.C109_amd_one	propext, Classical.choice, Quot.sound
Amd.C109_pdd_two	propext, Classical.choice, Quot.sound
Amd.C109_pdd_one	propext, Classical.choice, Quot.sound
Amd.C11_nearest_neighbors	propext, Classical.choice, Quot.sound
Amd.C11_amd	propext, Classical.choice, Quot.sound
Amd.C11_pdd	propext, Classical.choice, Quot.sound
Amd.C11_generators	propext, Classical.choice, Quot.sound
Amd.C110_pdd	propext, Classical.choice, Quot.sound
Amd.C110_two	propext, Classical.choice, Quot.sound
Amd.C110_one	propext, Classical.choice, Quot.sound
Amd.C111_number	propext, Classical.choice, Quot.sound
Amd.C111_nothing	propext, Classical.choice, Quot.sound
Amd.C111_inf	propext, Classical.choice, Quot.sound
Amd.C111_amd_two	propext, Classical.choice, Quot.sound
Amd.C111_amd_one	propext, Classical.choice, Quot.sound
Amd.C112_number	propext, Classical.choice, Quot.sound
Amd.C112_writes_partial	propext, Classical.choice, Quot.sound
Amd.C112_nothing_partial	propext, Classical.choice, Quot.sound
Amd.C112_negative	propext, Classical.choice, Quot.sound
Amd.C112_pdd_two_partial	propext, Classical.choice, Quot.sound
Amd.C112_pdd_partial	propext, Classical.choice, Quot.sound
Amd.C113_amd_partial	propext, Classical.choice, Quot.sound
Amd.C113_amd_two_partial	propext, Classical.choice, Quot.sound
Amd.C113_amd_large_k_partial	propext, Classical.choice, Quot.sound
Amd.C113_amd_two_large_k_partial	propext, Classical.choice, Quot.sound
Amd.C113_pdd_partial	propext, Classical.choice, Quot.sound
Amd.C113_pdd_two_partial	propext, Classical.choice, Quot.sound
Amd.C113_pdd_large_k_partial	propext, Classical.choice, Quot.sound
Amd.C113_pdd_two_large_k_partial	propext, Classical.choice, Quot.sound
Amd.C113_sites_amd_partial	propext, Classical.choice, Quot.sound
Amd.C113_sites_amd_two_partial	propext, Classical.choice, Quot.sound
Amd.C113_sites_amd_large_k_partial	propext, Classical.choice, Quot.sound
Amd.C113_sites_amd_two_large_k_partial	propext, Classical.choice, Quot.sound
Amd.C113_sites_pdd_partial	propext, Classical.choice, Quot.sound
Amd.C113_sites_pdd_two_partial	propext, Classical.choice, Quot.sound
Amd.C113_sites_pdd_large_k_partial	propext, Classical.choice, Quot.sound
Amd.C113_sites_pdd_two_large_k_partial	propext, Classical.choice, Quot.sound
Amd.C114_amd_partial	propext, Classical.choice, Quot.sound
Amd.C114_amd_large_k_partial	propext, Classical.choice, Quot.sound
Amd.C114_pdd_partial	propext, Classical.choice, Quot.sound
Amd.C114_pdd_large_k_partial	propext, Classical.choice, Quot.sound
Amd.C114_sites_amd_partial	propext, Classical.choice, Quot.sound
Amd.C114_sites_amd_large_k_partial	propext, Classical.choice, Quot.sound
Amd.C114_sites_pdd_partial	propext, Classical.choice, Quot.sound
Amd.C114_sites_pdd_large_k_partial	propext, Classical.choice, Quot.sound
Amd.C115_amd_two_partial	propext, Classical.choice, Quot.sound
Amd.C115_amd_two_large_k_partial	propext, Classical.choice, Quot.sound
Amd.C115_amd_partial	propext, Classical.choice, Quot.sound
Amd.C115_amd_large_k_partial	propext, Classical.choice, Quot.sound
Amd.C115_pdd_two_partial	propext, Classical.choice, Quot.sound
Amd.C115_pdd_two_large_k_partial	propext, Classical.choice, Quot.sound
Amd.C115_pdd_partial	propext, Classical.choice, Quot.sound
Amd.C115_pdd_large_k_partial	propext, Classical.choice, Quot.sound
Amd.C12_layer_exact	propext, Classical.choice, Quot.sound
Amd.C12_layers_partition	propext, Classical.choice, Quot.sound
Amd.C12_concentric_cloud	propext, Classical.choice, Quot.sound
Amd.C13_same_distances	propext, Classical.choice, Quot.sound
Amd.C13_cloud	propext, Classical.choice, Quot.sound
Amd.C13_indices	propext, Classical.choice, Quot.sound
Amd.C14_weights	propext, Classical.choice, Quot.sound
Amd.C14_weights_full_motif	propext, Classical.choice, Quot.sound
Amd.C15_lexsort	propext, Classical.choice, Quot.sound
Amd.C16_groups_partial	propext, Classical.choice, Quot.sound
Amd.C16_grouping_is_the_model	propext, Classical.choice, Quot.sound
Amd.C16_false_merged	propext, Classical.choice, Quot.sound
Amd.C16_false_close	propext, Classical.choice, Quot.sound
Amd.C17_uncollapsed_partial	propext, Classical.choice, Quot.sound
Amd.C17_full_motif_partial	propext, Classical.choice, Quot.sound
Amd.C17_collapsed_bound_partial	propext, Classical.choice, Quot.sound
Amd.C17_false	propext, Classical.choice, Quot.sound
Amd.C18_false	propext, Classical.choice, Quot.sound
Amd.C18_asym_unit_explicit_partial	propext, Classical.choice, Quot.sound
Amd.C18_asym_unit_of_searchable	propext, Classical.choice, Quot.sound
Amd.C18_asym_unit_partial	propext, Classical.choice, Quot.sound
Amd.C18_asym_unit_large_k_partial	propext, Classical.choice, Quot.sound
Amd.C19_pdd_finite	propext, Classical.choice, Quot.sound
Amd.C19_pdd_finite_options	propext, Classical.choice, Quot.sound
Amd.C19_amd_finite	propext, Classical.choice, Quot.sound
Amd.C20_amd_finite_isometry	propext, Classical.choice, Quot.sound
Amd.C20_pdd_finite_isometry	propext, Classical.choice, Quot.sound
Amd.C20_amd_finite_perm	propext, Classical.choice, Quot.sound
Amd.C20_pdd_finite_perm	propext, Classical.choice, Quot.sound
Amd.C21_last_column	propext, Classical.choice, Quot.sound
Amd.C22_volume	propext, Classical.choice, Quot.sound
Amd.C22_nonneg	propext, Classical.choice, Quot.sound
Amd.C22_pos	propext, Classical.choice, Quot.sound
Amd.C22_scaling	propext, Classical.choice, Quot.sound
Amd.C22_supercell	propext, Classical.choice, Quot.sound
Amd.C22_same_set	propext, Classical.choice, Quot.sound
Amd.C23_estimate	propext, Classical.choice, Quot.sound
Amd.C23_increasing	propext, Classical.choice, Quot.sound
Amd.C24_diameter	propext, Classical.choice, Quot.sound
Amd.C24_diameter_1D_partial	propext, Classical.choice, Quot.sound
Amd.C24_false_1D	propext, Classical.choice, Quot.sound
Amd.C25_cell	propext, Classical.choice, Quot.sound
Amd.C25_snap	propext, Classical.choice, Quot.sound
Amd.C25_roundtrip	propext, Classical.choice, Quot.sound
Amd.C25_exists	propext, Classical.choice, Quot.sound
Amd.C25_false_flat	propext, Classical.choice, Quot.sound
Amd.C25_inverse	propext, Classical.choice, Quot.sound
Amd.C26_roundtrip	propext, Classical.choice, Quot.sound
Amd.C26_inverse	propext, Classical.choice, Quot.sound
Amd.C27_entries	propext, Classical.choice, Quot.sound
Amd.C27_sums	propext, Classical.choice, Quot.sound
Amd.C27_cost	propext, Classical.choice, Quot.sound
Amd.C28_optimal	propext, Classical.choice, Quot.sound
Amd.C28_exact	propext, Classical.choice, Quot.sound
Amd.EMD_input_of_PDD	propext, Classical.choice, Quot.sound
Amd.EMD_default_metric	propext, Classical.choice, Quot.sound
Amd.C29_nonneg	propext, Classical.choice, Quot.sound
Amd.C29_self	propext, Classical.choice, Quot.sound
Amd.C29_isometric	propext, Classical.choice, Quot.sound
Amd.C30_symmetric	propext, Classical.choice, Quot.sound
Amd.C30_symmetric_large	propext, Classical.choice, Quot.sound
Amd.C31_triangle	propext, Classical.choice, Quot.sound
Amd.C31_exact_false	propext, Classical.choice, Quot.sound
Amd.C32_amd_lower_bound	propext, Classical.choice, Quot.sound
Amd.C32_exact_false	propext, Classical.choice, Quot.sound
Amd.C33_terminates	propext, Classical.choice, Quot.sound
Amd.C33_unique	propext, Classical.choice, Quot.sound
Amd.C33_columns	propext, Classical.choice, Quot.sound
Amd.C34_rows	propext, Classical.choice, Quot.sound
Amd.C34_reordered	propext, Classical.choice, Quot.sound
Amd.C34_lexsort	propext, Classical.choice, Quot.sound
Amd.C34_exact_false	propext, Classical.choice, Quot.sound
Amd.C35_chebyshev	propext, Classical.choice, Quot.sound
Amd.C35_cdist	propext, Classical.choice, Quot.sound
Amd.C35_pdist_partial	propext, Classical.choice, Quot.sound
Amd.C35_pdist_list	propext, Classical.choice, Quot.sound
Amd.C35_metric	propext, Classical.choice, Quot.sound
Amd.C35_low_memory_metric	propext, Classical.choice, Quot.sound
Amd.C35_false	propext, Classical.choice, Quot.sound
Amd.C36_cdist_schedule	propext, Classical.choice, Quot.sound
Amd.C36_pdist_schedule	propext, Classical.choice, Quot.sound
Amd.C36_cdist	propext, Classical.choice, Quot.sound
Amd.C36_pdist	propext, Classical.choice, Quot.sound
Amd.C36_cdist_raises	propext, Classical.choice, Quot.sound
Amd.C37_inputs	propext, Classical.choice, Quot.sound
Amd.C37_refcodes	propext, Classical.choice, Quot.sound
Amd.C37_single	propext, Classical.choice, Quot.sound
Amd.C37_amd	propext, Classical.choice, Quot.sound
Amd.C37_amd_two	propext, Classical.choice, Quot.sound
Amd.C37_amd_metric	propext, Classical.choice, Quot.sound
Amd.C37_pdd	propext, Classical.choice, Quot.sound
Amd.C37_pdd_two	propext, Classical.choice, Quot.sound
Amd.C37_schedule	propext, Classical.choice, Quot.sound
Amd.C37_raises_by	propext, Classical.choice, Quot.sound
Amd.C37_raises_input	propext, Classical.choice, Quot.sound
Amd.C37_raises_empty	propext, Classical.choice, Quot.sound
Amd.C37_raises_item	propext, Classical.choice, Quot.sound
Amd.C37_raises_refcodes	propext, Classical.choice, Quot.sound
Amd.C38_amd	propext, Classical.choice, Quot.sound
Amd.C38_amd_two	propext, Classical.choice, Quot.sound
Amd.C38_pdd_partial	propext, Classical.choice, Quot.sound
Amd.C38_pdd_two_partial	propext, Classical.choice, Quot.sound
Amd.C38_false	propext, Classical.choice, Quot.sound
Amd.C38_false_two	propext, Classical.choice, Quot.sound
Amd.C39_reader_options	propext, Classical.choice, Quot.sound
Amd.C39_verbose	propext, Classical.choice, Quot.sound
Amd.C39_routes	propext, Classical.choice, Quot.sound
Amd.C39_ignored	propext, Classical.choice, Quot.sound
Amd.C39_false	propext, Classical.choice, Quot.sound
Amd.C40_options_partial	propext, Classical.choice, Quot.sound
Amd.C40_keywords_partial	propext, Classical.choice, Quot.sound
Amd.C40_false	propext, Classical.choice, Quot.sound
Amd.C40_false_matrix	propext, Classical.choice, Quot.sound
Amd.C40_raises	propext, Classical.choice, Quot.sound
Amd.C40_outpath	propext, Classical.choice, Quot.sound
Amd.C41_list	propext, Classical.choice, Quot.sound
Amd.C41_list_events	propext, Classical.choice, Quot.sound
Amd.C41_read	propext, Classical.choice, Quot.sound
Amd.C41_next	propext, Quot.sound
Amd.C41_next_stop	propext, Quot.sound
Amd.C41_raises	propext, Classical.choice, Quot.sound
Amd.C42_shown_partial	propext, Classical.choice, Quot.sound
Amd.C42_silent	propext, Quot.sound
Amd.C42_filters_partial	propext
Amd.C42_history_partial	propext
Amd.C42_false_skipped	propext
Amd.C42_false_global	propext, Quot.sound
Amd.C43_parse	propext, Classical.choice, Quot.sound
Amd.C43_cache	propext, Classical.choice, Quot.sound
Amd.C44_images	propext, Classical.choice, Quot.sound
Amd.C44_orbit	propext, Classical.choice, Quot.sound
Amd.C44_distinct	propext, Classical.choice, Quot.sound
Amd.C44_chain	propext, Classical.choice, Quot.sound
Amd.C44_cover_partial	propext, Classical.choice, Quot.sound
Amd.C44_false	propext, Classical.choice, Quot.sound
Amd.C45_orbits	propext, Classical.choice, Quot.sound
Amd.C45_types	propext, Classical.choice, Quot.sound
Amd.C45_every_site	propext, Classical.choice, Quot.sound
Amd.C46_skip_rejects	propext, Classical.choice, Quot.sound
Amd.C46_skip_accepts	propext, Classical.choice, Quot.sound
Amd.C46_ordered	propext, Classical.choice, Quot.sound
Amd.C46_all	propext, Classical.choice, Quot.sound
Amd.C46_ase_skip_rejects	propext, Classical.choice, Quot.sound
Amd.C46_ase_skip_accepts	propext, Classical.choice, Quot.sound
Amd.C46_ase_ordered	propext, Classical.choice, Quot.sound
Amd.C46_ase_all	propext, Classical.choice, Quot.sound
Amd.C46_pmg_skip_rejects	propext, Classical.choice, Quot.sound
Amd.C46_pmg_skip_accepts	propext, Classical.choice, Quot.sound
Amd.C46_pmg_ordered	propext, Classical.choice, Quot.sound
Amd.C46_pmg_all	propext, Classical.choice, Quot.sound
Amd.C47_removed	propext, Classical.choice, Quot.sound
Amd.C47_accepted	propext, Classical.choice, Quot.sound
Amd.C47_ase_removed	propext, Classical.choice, Quot.sound
Amd.C47_ase_accepted	propext, Classical.choice, Quot.sound
Amd.C47_pmg_removed	propext, Classical.choice, Quot.sound
Amd.C47_pmg_accepted	propext, Classical.choice, Quot.sound
Amd.C48_cell_partial	propext, Classical.choice, Quot.sound
Amd.C48_coordinates_partial	propext, Classical.choice, Quot.sound
Amd.C48_occupancy_partial	propext, Classical.choice, Quot.sound
Amd.C48_false_coordinates	propext, Classical.choice, Quot.sound
Amd.C48_false_occupancy	propext, Classical.choice, Quot.sound
Amd.C48_false_cell	propext, Classical.choice, Quot.sound
Amd.C49_uncertainty_partial	propext, Classical.choice, Quot.sound
Amd.C49_plain_partial	propext, Classical.choice, Quot.sound
Amd.C49_false	propext, Classical.choice, Quot.sound
Amd.C50_true_partial	propext, Classical.choice, Quot.sound
Amd.C50_complete	propext, Classical.choice, Quot.sound
Amd.C50_false	propext, Classical.choice, Quot.sound
Amd.C51_false	propext, Classical.choice, Quot.sound
Amd.C51_continuity_explicit_partial	propext, Classical.choice, Quot.sound
Amd.C51_continuity_of_searchable	propext, Classical.choice, Quot.sound
Amd.C51_continuity_partial	propext, Classical.choice, Quot.sound
Amd.C51_continuity_large_k_partial	propext, Classical.choice, Quot.sound
Amd.C52_two_circles	propext, Classical.choice, Quot.sound
Amd.C52_three_spheres	propext, Classical.choice, Quot.sound
Amd.C53_families	propext, Classical.choice, Quot.sound
Amd.C53_arguments	propext, Classical.choice, Quot.sound
Amd.C54_neighbours	propext, Classical.choice, Quot.sound
Amd.C54_amd	propext, Classical.choice, Quot.sound
Amd.C54_pdd	propext, Classical.choice, Quot.sound
Amd.C55_random_cell_partial	propext, Classical.choice, Quot.sound
Amd.C55_random_cell_2D	propext, Classical.choice, Quot.sound
Amd.C55_false	propext, Classical.choice, Quot.sound
Amd.C56_terminates_partial	propext, Classical.choice, Quot.sound
Amd.C56_false	propext, Classical.choice, Quot.sound
Amd.C57_real_distances_partial	propext, Classical.choice, Quot.sound
Amd.C57_rows_partial	propext, Classical.choice, Quot.sound
Amd.C57_false	propext, Classical.choice, Quot.sound
Amd.C58_directory	propext, Classical.choice, Quot.sound
Amd.C58_path	propext, Classical.choice, Quot.sound
Amd.C59_rejected	propext, Classical.choice, Quot.sound
Amd.C60_reconstruct	propext, Classical.choice, Quot.sound
Amd.C60_off_lattice	propext, Classical.choice, Quot.sound
Amd.C61_terminates	propext, Classical.choice, Quot.sound
Amd.C62_two_circles	propext, Classical.choice, Quot.sound
Amd.C62_three_spheres_partial	propext, Classical.choice, Quot.sound
Amd.C62_false	propext, Classical.choice, Quot.sound
Amd.C63_ase_partial	propext, Classical.choice, Quot.sound
Amd.C63_pmg_partial	propext, Classical.choice, Quot.sound
Amd.C63_false_hydrogens	propext, Classical.choice, Quot.sound
Amd.C63_false_occupancy	propext, Classical.choice, Quot.sound
Amd.C63_false_disordered_hydrogen	propext, Classical.choice, Quot.sound
Amd.C63_false_single_site	propext, Classical.choice, Quot.sound
Amd.C64_pmg_partial	propext, Classical.choice, Quot.sound
Amd.C64_gemmi_partial	propext, Classical.choice, Quot.sound
Amd.C64_false_ase	propext, Classical.choice, Quot.sound
Amd.C64_false_gemmi	propext, Classical.choice, Quot.sound
Amd.C65_amd_of_searchable	propext, Classical.choice, Quot.sound
Amd.C65_amd_explicit_partial	propext, Classical.choice, Quot.sound
Amd.C65_points	propext, Classical.choice, Quot.sound
Amd.C65_once	propext, Classical.choice, Quot.sound
Amd.C65_asym_unit	propext, Classical.choice, Quot.sound
Amd.C65_description	propext, Classical.choice, Quot.sound
Amd.C65_amd_partial	propext, Classical.choice, Quot.sound
Amd.C65_amd_large_k_partial	propext, Classical.choice, Quot.sound
Amd.C65_pdd_partial	propext, Classical.choice, Quot.sound
Amd.C65_pdd_large_k_partial	propext, Classical.choice, Quot.sound
Amd.C66_amd_of_searchable	propext, Classical.choice, Quot.sound
Amd.C66_pdd_of_searchable	propext, Classical.choice, Quot.sound
Amd.C66_emd_of_searchable	propext, Classical.choice, Quot.sound
Amd.C66_amd_explicit_partial	propext, Classical.choice, Quot.sound
Amd.C66_pdd_explicit_partial	propext, Classical.choice, Quot.sound
Amd.C66_emd_explicit_partial	propext, Classical.choice, Quot.sound
Amd.C66_amd_partial	propext, Classical.choice, Quot.sound
Amd.C66_amd_large_k_partial	propext, Classical.choice, Quot.sound
Amd.C66_pdd_partial	propext, Classical.choice, Quot.sound
Amd.C66_pdd_large_k_partial	propext, Classical.choice, Quot.sound
Amd.C66_emd_partial	propext, Classical.choice, Quot.sound
Amd.C66_emd_third_partial	propext, Classical.choice, Quot.sound
Amd.C66_false	propext, Classical.choice, Quot.sound
Amd.C67_collapse	propext, Classical.choice, Quot.sound
Amd.C67_collapse_third	propext, Classical.choice, Quot.sound
Amd.C68_empty	propext, Classical.choice, Quot.sound
Amd.C68_ok	propext, Classical.choice, Quot.sound
Amd.C68_points_partial	propext, Classical.choice, Quot.sound
Amd.C68_description_partial	propext, Classical.choice, Quot.sound
Amd.C68_amd_partial	propext, Classical.choice, Quot.sound
Amd.C68_explicit_partial	propext, Classical.choice, Quot.sound
Amd.C68_false	propext, Classical.choice, Quot.sound
Amd.C69_types_partial	propext, Classical.choice, Quot.sound
Amd.C69_false	propext, Classical.choice, Quot.sound
Amd.C70_ase_partial	propext, Classical.choice, Quot.sound
Amd.C70_ase_false	propext, Classical.choice, Quot.sound
Amd.C70_ase_again	propext, Classical.choice, Quot.sound
Amd.C70_pymatgen_partial	propext, Classical.choice, Quot.sound
Amd.C70_pymatgen_false	propext, Classical.choice, Quot.sound
Amd.C70_pymatgen_again	propext, Classical.choice, Quot.sound
Amd.C70_ccdc_false	propext, Classical.choice, Quot.sound
Amd.C71_skip	propext, Classical.choice, Quot.sound
Amd.C71_ordered_structure	propext, Classical.choice, Quot.sound
Amd.C71_ordered_sites_partial	propext, Classical.choice, Quot.sound
Amd.C71_no_disorder	propext, Classical.choice, Quot.sound
Amd.C71_ordered_sites_false	propext, Classical.choice, Quot.sound
Amd.C71_all_sites_false	propext, Classical.choice, Quot.sound
Amd.C72_ase	propext, Classical.choice, Quot.sound
Amd.C72_pymatgen_partial	propext, Classical.choice, Quot.sound
Amd.C72_pymatgen_false	propext, Classical.choice, Quot.sound
Amd.C72_ccdc_partial	propext, Classical.choice, Quot.sound
Amd.C72_ccdc_false	propext, Classical.choice, Quot.sound
Amd.C73_description	propext, Classical.choice, Quot.sound
Amd.C73_amd_partial	propext, Classical.choice, Quot.sound
Amd.C73_explicit_partial	propext, Classical.choice, Quot.sound
Amd.C73_large_k_partial	propext, Classical.choice, Quot.sound
Amd.C74_skip	propext, Classical.choice, Quot.sound
Amd.C74_atoms_partial	propext, Classical.choice, Quot.sound
Amd.C74_entry	propext, Classical.choice, Quot.sound
Amd.C74_coordinates_false	propext, Classical.choice, Quot.sound
Amd.C75_heaviest_partial	propext, Classical.choice, Quot.sound
Amd.C75_single	propext, Classical.choice, Quot.sound
Amd.C75_false	propext, Classical.choice, Quot.sound
Amd.C76_centres	propext, Classical.choice, Quot.sound
Amd.C76_false	propext, Classical.choice, Quot.sound
Amd.C77_empty	propext, Classical.choice, Quot.sound
Amd.C77_missing_cell	propext, Classical.choice, Quot.sound
Amd.C77_accepted	propext, Classical.choice, Quot.sound
Amd.C77_cell	propext, Classical.choice, Quot.sound
Amd.C77_points	propext, Classical.choice, Quot.sound
Amd.C77_description	propext, Classical.choice, Quot.sound
Amd.C77_amd_partial	propext, Classical.choice, Quot.sound
Amd.C77_types	propext, Classical.choice, Quot.sound
Amd.C78_cubic_points	propext, Classical.choice, Quot.sound
Amd.C78_cubic	propext, Classical.choice, Quot.sound
Amd.C78_hexagonal_2D	propext, Classical.choice, Quot.sound
Amd.C78_hexagonal_3D	propext, Classical.choice, Quot.sound
Amd.C78_hexagonal_other	propext, Classical.choice, Quot.sound
Amd.C79_random_3D_partial	propext, Classical.choice, Quot.sound
Amd.C79_random_2D	propext, Classical.choice, Quot.sound
Amd.C79_random_other	propext, Classical.choice, Quot.sound
Amd.C79_false	propext, Classical.choice, Quot.sound
Amd.C80_elements	propext, Quot.sound
Amd.C80_accepted	propext, Classical.choice, Quot.sound
Amd.C80_disordered	propext, Classical.choice, Quot.sound
Amd.C80_empty	propext, Classical.choice, Quot.sound
Amd.C80_cell	propext, Classical.choice, Quot.sound
Amd.C80_points	propext, Classical.choice, Quot.sound
Amd.C80_once	propext, Classical.choice, Quot.sound
Amd.C80_types	propext, Classical.choice, Quot.sound
Amd.C80_amd_partial	propext, Classical.choice, Quot.sound
Amd.C81_accurate	propext, Classical.choice, Quot.sound
Amd.C81_cancellation	propext, Classical.choice, Quot.sound
Amd.C81_rows_of_accurate_partial	propext, Classical.choice, Quot.sound
Amd.C81_rows_partial	propext, Classical.choice, Quot.sound
Amd.C81_terminates	propext, Classical.choice, Quot.sound
Amd.C81_exact	propext, Classical.choice, Quot.sound
Amd.C81_amd_partial	propext, Classical.choice, Quot.sound
Amd.C81_pdd_partial	propext, Classical.choice, Quot.sound
Amd.C81_isometric_partial	propext, Classical.choice, Quot.sound
Amd.C82_range	propext, Classical.choice, Quot.sound
Amd.C82_pdd_terminates	propext, Classical.choice, Quot.sound
Amd.C82_pdd_partial	propext, Classical.choice, Quot.sound
Amd.C82_emd_terminates_partial	propext, Classical.choice, Quot.sound
Amd.C82_emd_partial	propext, Classical.choice, Quot.sound
Amd.C82_isometric_partial	propext, Classical.choice, Quot.sound
Amd.C83_amd_unique	propext, Classical.choice, Quot.sound
Amd.C83_pdd_unique	propext, Classical.choice, Quot.sound
Amd.C83_amd_partial	propext, Classical.choice, Quot.sound
Amd.C83_amd_two_partial	propext, Classical.choice, Quot.sound
Amd.C83_amd_large_k_partial	propext, Classical.choice, Quot.sound
Amd.C83_raises	propext, Classical.choice, Quot.sound
Amd.C83_pdd_partial	propext, Classical.choice, Quot.sound
Amd.C83_pdd_two_partial	propext, Classical.choice, Quot.sound
Amd.C83_pdd_large_k_partial	propext, Classical.choice, Quot.sound
Amd.C84_no_overflow_partial	propext, Classical.choice, Quot.sound
Amd.C84_terminates_partial	propext, Classical.choice, Quot.sound
Amd.C84_optimal_partial	propext, Classical.choice, Quot.sound
Amd.C84_rounded_partial	propext, Classical.choice, Quot.sound
Amd.C84_isometric_partial	propext, Classical.choice, Quot.sound
Amd.C84_false	propext, Classical.choice, Quot.sound
Amd.C85_displaced	propext, Classical.choice, Quot.sound
Amd.C85_isometric	propext, Classical.choice, Quot.sound
Amd.C85_amd_partial	propext, Classical.choice, Quot.sound
Amd.C85_amd_explicit_partial	propext, Classical.choice, Quot.sound
Amd.C85_amd_large_k_partial	propext, Classical.choice, Quot.sound
Amd.C85_emd_partial	propext, Classical.choice, Quot.sound
Amd.C85_emd_explicit_partial	propext, Classical.choice, Quot.sound
Amd.C85_emd_large_k_partial	propext, Classical.choice, Quot.sound
Amd.C85_rounded_partial	propext, Classical.choice, Quot.sound
Amd.C85_amd_rounded_partial	propext, Classical.choice, Quot.sound
Amd.C85_false	propext, Classical.choice, Quot.sound
Amd.C86_amd_lower	propext, Classical.choice, Quot.sound
Amd.C86_amd_partial	propext, Classical.choice, Quot.sound
Amd.C86_amd_explicit_partial	propext, Classical.choice, Quot.sound
Amd.C86_amd_large_k_partial	propext, Classical.choice, Quot.sound
Amd.C86_diameter	propext, Classical.choice, Quot.sound
Amd.C86_pdd_lower	propext, Classical.choice, Quot.sound
Amd.C86_pdd_partial	propext, Classical.choice, Quot.sound
Amd.C86_pdd_explicit_partial	propext, Classical.choice, Quot.sound
Amd.C86_pdd_large_k_partial	propext, Classical.choice, Quot.sound
Amd.C86_tight	propext, Classical.choice, Quot.sound
Amd.C86_false	propext, Classical.choice, Quot.sound
Amd.C87_gemmi	propext, Classical.choice, Quot.sound
Amd.C87_ase_partial	propext, Classical.choice, Quot.sound
Amd.C87_ase_removed	propext, Classical.choice, Quot.sound
Amd.C87_pymatgen_partial	propext, Classical.choice, Quot.sound
Amd.C87_pymatgen_removed	propext, Classical.choice, Quot.sound
Amd.C87_agree	propext, Classical.choice, Quot.sound
Amd.C87_amd_partial	propext, Classical.choice, Quot.sound
Amd.C87_pdd_partial	propext, Classical.choice, Quot.sound
Amd.C87_large_k_partial	propext, Classical.choice, Quot.sound
Amd.C87_false_ase	propext, Classical.choice, Quot.sound
Amd.C87_false_pymatgen	propext, Classical.choice, Quot.sound
Amd.C88_cif	propext, Classical.choice, Quot.sound
Amd.C88_csd	propext, Classical.choice, Quot.sound
Amd.C88_csd_unknown	propext, Classical.choice, Quot.sound
Amd.C88_csd_rejected	propext, Classical.choice, Quot.sound
Amd.C88_silent	propext, Classical.choice, Quot.sound
Amd.C88_csd_shown	propext, Classical.choice, Quot.sound
Amd.C89_gemmi	propext, Classical.choice, Quot.sound
Amd.C89_ase	propext, Classical.choice, Quot.sound
Amd.C89_pymatgen	propext, Classical.choice, Quot.sound
Amd.C89_ccdc	propext, Classical.choice, Quot.sound
Amd.C89_cif	propext, Classical.choice, Quot.sound
Amd.C89_csd	propext, Classical.choice, Quot.sound
Amd.C90_description	propext, Classical.choice, Quot.sound
Amd.C90_isometric	propext, Classical.choice, Quot.sound
Amd.C90_paired	propext, Classical.choice, Quot.sound
Amd.C90_amd_of_searchable	propext, Classical.choice, Quot.sound
Amd.C90_amd_same_of_searchable	propext, Classical.choice, Quot.sound
Amd.C90_amd_partial	propext, Classical.choice, Quot.sound
Amd.C90_amd_explicit_partial	propext, Classical.choice, Quot.sound
Amd.C90_amd_large_k_partial	propext, Classical.choice, Quot.sound
Amd.C90_amd_near_partial	propext, Classical.choice, Quot.sound
Amd.C90_pdd_of_searchable	propext, Classical.choice, Quot.sound
Amd.C90_pdd_partial	propext, Classical.choice, Quot.sound
Amd.C90_pdd_explicit_partial	propext, Classical.choice, Quot.sound
Amd.C90_pdd_large_k_partial	propext, Classical.choice, Quot.sound
Amd.C90_emd_of_searchable	propext, Classical.choice, Quot.sound
Amd.C90_emd_partial	propext, Classical.choice, Quot.sound
Amd.C90_emd_large_k_partial	propext, Classical.choice, Quot.sound
Amd.C90_times	propext, Classical.choice, Quot.sound
Amd.C90_false	propext, Classical.choice, Quot.sound
Amd.C91_times	propext, Classical.choice, Quot.sound
Amd.C91_amd_unique	propext, Classical.choice, Quot.sound
Amd.C91_pdd_unique	propext, Classical.choice, Quot.sound
Amd.C91_amd_two_partial	propext, Classical.choice, Quot.sound
Amd.C91_amd_partial	propext, Classical.choice, Quot.sound
Amd.C91_amd_large_k_partial	propext, Classical.choice, Quot.sound
Amd.C91_raises	propext, Classical.choice, Quot.sound
Amd.C91_pdd_two_partial	propext, Classical.choice, Quot.sound
Amd.C91_pdd_partial	propext, Classical.choice, Quot.sound
Amd.C91_pdd_large_k_partial	propext, Classical.choice, Quot.sound
Amd.C92_amd	propext, Classical.choice, Quot.sound
Amd.C92_pdd	propext, Classical.choice, Quot.sound
Amd.C92_sites_amd	propext, Classical.choice, Quot.sound
Amd.C92_sites_pdd	propext, Classical.choice, Quot.sound
Amd.C92_moved	propext, Classical.choice, Quot.sound
Amd.C92_sites_moved	propext, Classical.choice, Quot.sound
Amd.C92_compare_amd_partial	propext, Classical.choice, Quot.sound
Amd.C92_compare_pdd_partial	propext, Classical.choice, Quot.sound
Amd.C92_compare_amd_large_k_partial	propext, Classical.choice, Quot.sound
Amd.C92_sites_compare_amd_partial	propext, Classical.choice, Quot.sound
Amd.C92_sites_compare_pdd_partial	propext, Classical.choice, Quot.sound
Amd.C93_set_amd_partial	propext, Classical.choice, Quot.sound
Amd.C93_set_emd_partial	propext, Classical.choice, Quot.sound
Amd.C93_set_large_k_partial	propext, Classical.choice, Quot.sound
Amd.C93_amd	propext, Classical.choice, Quot.sound
Amd.C93_pdd	propext, Classical.choice, Quot.sound
Amd.C93_sites_amd	propext, Classical.choice, Quot.sound
Amd.C93_sites_pdd	propext, Classical.choice, Quot.sound
Amd.C93_remeasured	propext, Classical.choice, Quot.sound
Amd.C93_sites_remeasured	propext, Classical.choice, Quot.sound
Amd.C93_parameters	propext, Classical.choice, Quot.sound
Amd.C93_last	propext, Classical.choice, Quot.sound
Amd.C93_sites_last	propext, Classical.choice, Quot.sound
Amd.C93_compare_amd_partial	propext, Classical.choice, Quot.sound
Amd.C93_compare_pdd_partial	propext, Classical.choice, Quot.sound
Amd.C93_compare_amd_large_k_partial	propext, Classical.choice, Quot.sound
Amd.C93_sites_compare_amd_partial	propext, Classical.choice, Quot.sound
Amd.C93_sites_compare_pdd_partial	propext, Classical.choice, Quot.sound
Amd.C94_amd_partial	propext, Classical.choice, Quot.sound
Amd.C94_amd_two_partial	propext, Classical.choice, Quot.sound
Amd.C94_amd_large_k_partial	propext, Classical.choice, Quot.sound
Amd.C94_pdd_partial	propext, Classical.choice, Quot.sound
Amd.C94_pdd_two_partial	propext, Classical.choice, Quot.sound
Amd.C94_sites_amd_partial	propext, Classical.choice, Quot.sound
Amd.C94_sites_amd_two_partial	propext, Classical.choice, Quot.sound
Amd.C94_sites_amd_large_k_partial	propext, Classical.choice, Quot.sound
Amd.C94_sites_pdd_partial	propext, Classical.choice, Quot.sound
Amd.C94_sites_pdd_two_partial	propext, Classical.choice, Quot.sound
Amd.C95_parses	propext, Classical.choice, Quot.sound
Amd.C95_runs	propext, Classical.choice, Quot.sound
Amd.C95_writes_partial	propext, Classical.choice, Quot.sound
Amd.C95_no_paths	propext, Classical.choice, Quot.sound
Amd.C95_separated	propext, Classical.choice, Quot.sound
Amd.C95_separator	propext, Classical.choice, Quot.sound
Amd.C95_refused	propext, Classical.choice, Quot.sound
Amd.C95_unknown_partial	propext, Classical.choice, Quot.sound
Amd.C95_negative	propext, Classical.choice, Quot.sound
Amd.C95_amd_partial	propext, Classical.choice, Quot.sound
Amd.C95_amd_two_partial	propext, Classical.choice, Quot.sound
Amd.C95_pdd_partial	propext, Classical.choice, Quot.sound
Amd.C95_pdd_two_partial	propext, Classical.choice, Quot.sound
Amd.C96_names	propext, Classical.choice, Quot.sound
Amd.C96_metrics	propext, Classical.choice, Quot.sound
Amd.C96_exact	propext, Classical.choice, Quot.sound
Amd.C96_amd_two_partial	propext, Classical.choice, Quot.sound
Amd.C96_amd_partial	propext, Classical.choice, Quot.sound
Amd.C96_pdd_two_partial	propext, Classical.choice, Quot.sound
Amd.C96_pdd_partial	propext, Classical.choice, Quot.sound
Amd.C96_sites_amd_two_partial	propext, Classical.choice, Quot.sound
Amd.C96_sites_amd_partial	propext, Classical.choice, Quot.sound
Amd.C96_sites_pdd_two_partial	propext, Classical.choice, Quot.sound
Amd.C96_sites_pdd_partial	propext, Classical.choice, Quot.sound
Amd.C96_command_amd_partial	propext, Classical.choice, Quot.sound
Amd.C96_command_pdd_partial	propext, Classical.choice, Quot.sound
Amd.C96_amd_two_large_k_partial	propext, Classical.choice, Quot.sound
Amd.C96_amd_large_k_partial	propext, Classical.choice, Quot.sound
Amd.C96_pdd_two_large_k_partial	propext, Classical.choice, Quot.sound
Amd.C96_pdd_large_k_partial	propext, Classical.choice, Quot.sound
Amd.C96_sites_amd_two_large_k_partial	propext, Classical.choice, Quot.sound
Amd.C96_sites_amd_large_k_partial	propext, Classical.choice, Quot.sound
Amd.C96_sites_pdd_two_large_k_partial	propext, Classical.choice, Quot.sound
Amd.C96_sites_pdd_large_k_partial	propext, Classical.choice, Quot.sound
Amd.C96_command_amd_two_large_k_partial	propext, Classical.choice, Quot.sound
Amd.C96_command_amd_large_k_partial	propext, Classical.choice, Quot.sound
Amd.C96_command_pdd_two_large_k_partial	propext, Classical.choice, Quot.sound
Amd.C96_command_pdd_large_k_partial	propext, Classical.choice, Quot.sound
Amd.C97_filter_two	propext, Classical.choice, Quot.sound
Amd.C97_filter	propext, Classical.choice, Quot.sound
Amd.C97_amd_distances	propext, Classical.choice, Quot.sound
Amd.C97_pdd_distances	propext, Classical.choice, Quot.sound
Amd.C97_shrinks	propext, Classical.choice, Quot.sound
Amd.C97_more_amd_two_partial	propext, Classical.choice, Quot.sound
Amd.C97_more_amd_partial	propext, Classical.choice, Quot.sound
Amd.C97_more_pdd_two_partial	propext, Classical.choice, Quot.sound
Amd.C97_more_pdd_partial	propext, Classical.choice, Quot.sound
Amd.C97_sites_more_amd_two_partial	propext, Classical.choice, Quot.sound
Amd.C97_sites_more_amd_partial	propext, Classical.choice, Quot.sound
Amd.C97_sites_more_pdd_two_partial	propext, Classical.choice, Quot.sound
Amd.C97_sites_more_pdd_partial	propext, Classical.choice, Quot.sound
Amd.C97_more_amd_two_large_k_partial	propext, Classical.choice, Quot.sound
Amd.C97_more_amd_large_k_partial	propext, Classical.choice, Quot.sound
Amd.C97_more_pdd_two_large_k_partial	propext, Classical.choice, Quot.sound
Amd.C97_more_pdd_large_k_partial	propext, Classical.choice, Quot.sound
Amd.C97_sites_more_amd_two_large_k_partial	propext, Classical.choice, Quot.sound
Amd.C97_sites_more_amd_large_k_partial	propext, Classical.choice, Quot.sound
Amd.C97_sites_more_pdd_two_large_k_partial	propext, Classical.choice, Quot.sound
Amd.C97_sites_more_pdd_large_k_partial	propext, Classical.choice, Quot.sound
Amd.C98_read_partial	propext, Classical.choice, Quot.sound
Amd.C98_csd_partial	propext, Classical.choice, Quot.sound
Amd.C98_amd_two_partial	propext, Classical.choice, Quot.sound
Amd.C98_amd_partial	propext, Classical.choice, Quot.sound
Amd.C98_pdd_two_partial	propext, Classical.choice, Quot.sound
Amd.C98_pdd_partial	propext, Classical.choice, Quot.sound
Amd.C98_false	propext, Classical.choice, Quot.sound
Amd.C98_amd_two_large_k_partial	propext, Classical.choice, Quot.sound
Amd.C98_amd_large_k_partial	propext, Classical.choice, Quot.sound
Amd.C98_pdd_two_large_k_partial	propext, Classical.choice, Quot.sound
Amd.C98_pdd_large_k_partial	propext, Classical.choice, Quot.sound
Amd.C99_sequential	propext, Classical.choice, Quot.sound
Amd.C99_warm_partial	propext, Classical.choice, Quot.sound
Amd.C99_repeated_partial	propext, Classical.choice, Quot.sound
Amd.C99_false	propext, Classical.choice, Quot.sound
Amd.C99_raises	propext, Classical.choice, Quot.sound
