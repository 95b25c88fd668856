{
 "claims": [
  {
   "property": "C01",
   "status": "proved",
   "theorems": [
    "SqPerc.C01_lattice_exists",
    "SqPerc.C01_bonds_of_site",
    "SqPerc.C01_sites_of_bond",
    "SqPerc.C01_incidence",
    "SqPerc.C01_scans_pass",
    "SqPerc.C01_distinct",
    "SqPerc.C01_length_one"
   ],
   "note": ""
  },
  {
   "property": "C02",
   "status": "proved",
   "theorems": [
    "SqPerc.C02_site_id",
    "SqPerc.C02_bond_id",
    "SqPerc.C02_site_encoding",
    "SqPerc.C02_bond_encoding",
    "SqPerc.C02_row_col"
   ],
   "note": ""
  },
  {
   "property": "C03",
   "status": "proved",
   "theorems": [
    "SqPerc.C03_neighbours",
    "SqPerc.C03_symmetric"
   ],
   "note": ""
  },
  {
   "property": "C04",
   "status": "proved",
   "theorems": [
    "SqPerc.C04_symmetric",
    "SqPerc.C04_neighbours",
    "SqPerc.C04_periodic_iff",
    "SqPerc.C04_not_periodic"
   ],
   "note": ""
  },
  {
   "property": "C05",
   "status": "proved",
   "theorems": [
    "SqPerc.C05_bond_partition",
    "SqPerc.C05_bond_counts_sum"
   ],
   "note": ""
  },
  {
   "property": "C06",
   "status": "proved",
   "theorems": [
    "SqPerc.C06_site_partition"
   ],
   "note": ""
  },
  {
   "property": "C07",
   "status": "proved",
   "theorems": [
    "SqPerc.C07_same_gid_iff_connected"
   ],
   "note": ""
  },
  {
   "property": "C08",
   "status": "proved",
   "theorems": [
    "SqPerc.C08_same_gid_iff_connected",
    "SqPerc.C08_site_bonds"
   ],
   "note": ""
  },
  {
   "property": "C09",
   "status": "proved",
   "theorems": [
    "SqPerc.C09_only_adjacent"
   ],
   "note": ""
  },
  {
   "property": "C10",
   "status": "proved",
   "theorems": [
    "SqPerc.C10_place_one_site",
    "SqPerc.C10_occupied_stays",
    "SqPerc.C10_occupied_stays_raised"
   ],
   "note": ""
  },
  {
   "property": "C11",
   "status": "proved",
   "theorems": [
    "SqPerc.C11_counter",
    "SqPerc.C11_occupation_prob"
   ],
   "note": ""
  },
  {
   "property": "C12",
   "status": "proved",
   "theorems": [
    "SqPerc.C12_largest",
    "SqPerc.C12_largest_component",
    "SqPerc.C12_empty"
   ],
   "note": ""
  },
  {
   "property": "C13",
   "status": "proved",
   "theorems": [
    "SqPerc.C13_monotone",
    "SqPerc.C13_bounded",
    "SqPerc.C13_full"
   ],
   "note": ""
  },
  {
   "property": "C14",
   "status": "proved",
   "theorems": [
    "SqPerc.C14_entropies_agree"
   ],
   "note": ""
  },
  {
   "property": "C15",
   "status": "proved",
   "theorems": [
    "SqPerc.C15_entropy_shannon",
    "SqPerc.C15_bounds",
    "SqPerc.C15_full",
    "SqPerc.C15_monotone",
    "SqPerc.C15_strict"
   ],
   "note": ""
  },
  {
   "property": "C16",
   "status": "proved",
   "theorems": [
    "SqPerc.C16_detect_sound"
   ],
   "note": ""
  },
  {
   "property": "C17",
   "status": "proved",
   "theorems": [
    "SqPerc.C17_detect_exact",
    "SqPerc.C17_detect_iff"
   ],
   "note": ""
  },
  {
   "property": "C18",
   "status": "proved",
   "theorems": [
    "SqPerc.C18_small_lattices"
   ],
   "note": ""
  },
  {
   "property": "C19",
   "status": "proved",
   "theorems": [
    "SqPerc.C19_sticky"
   ],
   "note": ""
  },
  {
   "property": "C20",
   "status": "proved",
   "theorems": [
    "SqPerc.C20_wrapping_cluster",
    "SqPerc.C20_wrapping_cluster_grows"
   ],
   "note": ""
  },
  {
   "property": "C21",
   "status": "proved",
   "theorems": [
    "SqPerc.C21_critical_values",
    "SqPerc.C21_run_once"
   ],
   "note": ""
  },
  {
   "property": "C22",
   "status": "proved",
   "theorems": [
    "SqPerc.C22_single_neighbour",
    "SqPerc.C22_missed"
   ],
   "note": ""
  },
  {
   "property": "C23",
   "status": "proved",
   "theorems": [
    "SqPerc.C23_fresh_raises",
    "SqPerc.C23_after_reset"
   ],
   "note": ""
  },
  {
   "property": "C24",
   "status": "proved",
   "theorems": [
    "SqPerc.C24_calls",
    "SqPerc.C24_run_once"
   ],
   "note": ""
  },
  {
   "property": "C25",
   "status": "proved",
   "theorems": [
    "SqPerc.C25_data_array"
   ],
   "note": ""
  },
  {
   "property": "C26",
   "status": "proved",
   "theorems": [
    "SqPerc.C26_full_lattice",
    "SqPerc.C26_small_lattice_fails"
   ],
   "note": ""
  },
  {
   "property": "C27",
   "status": "proved",
   "theorems": [
    "SqPerc.C27_observables",
    "SqPerc.C27_entropy",
    "SqPerc.C27_data_array",
    "SqPerc.C27_same_data"
   ],
   "note": ""
  },
  {
   "property": "C28",
   "status": "proved",
   "theorems": [
    "SqPerc.C28_any_history",
    "SqPerc.C28_any_run",
    "SqPerc.C28_reset_state",
    "SqPerc.C28_initial_state",
    "SqPerc.C28_behaves_as_new",
    "SqPerc.C28_run_as_new",
    "SqPerc.C28_stale_selection"
   ],
   "note": ""
  },
  {
   "property": "C29",
   "status": "proved",
   "theorems": [
    "SqPerc.C29_repetitions",
    "SqPerc.C29_late_first_run"
   ],
   "note": ""
  },
  {
   "property": "C30",
   "status": "proved",
   "theorems": [
    "SqPerc.C30_empty",
    "SqPerc.C30_validates",
    "SqPerc.C30_unchanged_iff",
    "SqPerc.C30_order",
    "SqPerc.C30_repeat",
    "SqPerc.C30_run_once"
   ],
   "note": ""
  },
  {
   "property": "C31",
   "status": "proved",
   "theorems": [
    "SqPerc.C31_encodes",
    "SqPerc.C31_validates",
    "SqPerc.C31_order",
    "SqPerc.C31_accepts_out_of_range"
   ],
   "note": ""
  },
  {
   "property": "C32",
   "status": "proved",
   "theorems": [
    "SqPerc.C32_order",
    "SqPerc.C32_new",
    "SqPerc.C32_shuffle",
    "SqPerc.C32_reset",
    "SqPerc.C32_swap",
    "SqPerc.C32_stale_reverse_L1"
   ],
   "note": ""
  },
  {
   "property": "C33",
   "status": "proved",
   "theorems": [
    "SqPerc.C33_never_raises",
    "SqPerc.C33_pool"
   ],
   "note": ""
  },
  {
   "property": "C34",
   "status": "proved",
   "theorems": [
    "SqPerc.C34_calls",
    "SqPerc.C34_run_once"
   ],
   "note": ""
  },
  {
   "property": "C35",
   "status": "proved",
   "theorems": [
    "SqPerc.C35_never_raises",
    "SqPerc.C35_pool",
    "SqPerc.C35_calls",
    "SqPerc.C35_run_once"
   ],
   "note": ""
  },
  {
   "property": "C36",
   "status": "proved",
   "theorems": [
    "SqPerc.C36_rule",
    "SqPerc.C36_every_choice",
    "SqPerc.C36_x_occupied",
    "SqPerc.C36_x_occupied_start"
   ],
   "note": ""
  },
  {
   "property": "C37",
   "status": "proved",
   "theorems": [
    "SqPerc.C37_rule",
    "SqPerc.C37_boundary_fails",
    "SqPerc.C37_straight_ahead"
   ],
   "note": ""
  },
  {
   "property": "C38",
   "status": "proved",
   "theorems": [
    "SqPerc.C38_sequence",
    "SqPerc.C38_replay",
    "SqPerc.C38_same_data"
   ],
   "note": ""
  },
  {
   "property": "C39",
   "status": "proved",
   "theorems": [
    "SqPerc.C39_line",
    "SqPerc.C39_values",
    "SqPerc.C39_pc_le"
   ],
   "note": ""
  },
  {
   "property": "C40",
   "status": "proved",
   "theorems": [
    "SqPerc.C40_first_small",
    "SqPerc.C40_not_first_all",
    "SqPerc.C40_first_iff",
    "SqPerc.C40_default_small",
    "SqPerc.C40_default_late",
    "SqPerc.C40_exact",
    "SqPerc.C40_not_early",
    "SqPerc.C40_scan_all",
    "SqPerc.C40_not_first"
   ],
   "note": ""
  },
  {
   "property": "C41",
   "status": "proved",
   "theorems": [
    "SqPerc.C41_found",
    "SqPerc.C41_bounds",
    "SqPerc.C41_small"
   ],
   "note": ""
  },
  {
   "property": "C42",
   "status": "proved",
   "theorems": [
    "SqPerc.C42_entrywise_mean",
    "SqPerc.C42_mean",
    "SqPerc.C42_empty_raises",
    "SqPerc.C42_threads",
    "SqPerc.C42_no_threads",
    "SqPerc.C42_idle_threads",
    "SqPerc.C42_shortest_path"
   ],
   "note": ""
  },
  {
   "property": "C43",
   "status": "proved",
   "theorems": [
    "SqPerc.C43_threads_correct",
    "SqPerc.C43_header_wrong"
   ],
   "note": ""
  },
  {
   "property": "C44",
   "status": "proved",
   "theorems": [
    "SqPerc.C44_first_largest_jump",
    "SqPerc.C44_first_crossing",
    "SqPerc.C44_single_crossing",
    "SqPerc.C44_no_change",
    "SqPerc.C44_touching",
    "SqPerc.C44_short_raises",
    "SqPerc.C44_lengths",
    "SqPerc.C44_single_point",
    "SqPerc.C44_column"
   ],
   "note": ""
  },
  {
   "property": "C45",
   "status": "proved",
   "theorems": [
    "SqPerc.C45_componentwise",
    "SqPerc.C45_group",
    "SqPerc.C45_normalize_axis",
    "SqPerc.C45_normalize_other",
    "SqPerc.C45_normalize_idem"
   ],
   "note": ""
  },
  {
   "property": "C46",
   "status": "proved",
   "theorems": [
    "SqPerc.C46_exact",
    "SqPerc.C46_interior",
    "SqPerc.C46_last_column_raises",
    "SqPerc.C46_first_row_raises",
    "SqPerc.C46_length_one"
   ],
   "note": ""
  },
  {
   "property": "C47",
   "status": "proved",
   "theorems": [
    "SqPerc.C47_test_relative_index",
    "SqPerc.C47_unit_neighbour"
   ],
   "note": ""
  },
  {
   "property": "C48",
   "status": "proved",
   "theorems": [
    "SqPerc.C48_exact",
    "SqPerc.C48_row_fails"
   ],
   "note": ""
  },
  {
   "property": "C49",
   "status": "proved",
   "theorems": [
    "SqPerc.C49_decomposes",
    "SqPerc.C49_unique",
    "SqPerc.C49_sum_always",
    "SqPerc.C49_text"
   ],
   "note": ""
  },
  {
   "property": "C50",
   "status": "proved",
   "theorems": [
    "SqPerc.C50_listed_twice",
    "SqPerc.C50_sum_too_large",
    "SqPerc.C50_one_cluster"
   ],
   "note": ""
  },
  {
   "property": "C51",
   "status": "proved",
   "theorems": [
    "SqPerc.C51_view_components",
    "SqPerc.C51_initial",
    "SqPerc.C51_full",
    "SqPerc.C51_step"
   ],
   "note": ""
  },
  {
   "property": "C52",
   "status": "proved",
   "theorems": [
    "SqPerc.C52_wrapping_le_largest",
    "SqPerc.C52_order_parameters"
   ],
   "note": ""
  },
  {
   "property": "C53",
   "status": "proved",
   "theorems": [
    "SqPerc.C53_relative_index_lift"
   ],
   "note": ""
  },
  {
   "property": "C54",
   "status": "proved",
   "theorems": [
    "SqPerc.C54_critical_counts",
    "SqPerc.C54_pc_lower",
    "SqPerc.C54_spans",
    "SqPerc.C54_must_wrap",
    "SqPerc.C54_critical_upper",
    "SqPerc.C54_pc_upper"
   ],
   "note": ""
  },
  {
   "property": "C55",
   "status": "proved",
   "theorems": [
    "SqPerc.C55_bonds_of_sites",
    "SqPerc.C55_handshake"
   ],
   "note": ""
  },
  {
   "property": "C56",
   "status": "proved",
   "theorems": [
    "SqPerc.C56_bond_relabels",
    "SqPerc.C56_total_relabels",
    "SqPerc.C56_site_relabels"
   ],
   "note": ""
  },
  {
   "property": "C57",
   "status": "proved",
   "theorems": [
    "SqPerc.C57_shuffle_bijective",
    "SqPerc.C57_new",
    "SqPerc.C57_reset",
    "SqPerc.C57_configurations",
    "SqPerc.C57_every_configuration"
   ],
   "note": ""
  },
  {
   "property": "C58",
   "status": "proved",
   "theorems": [
    "SqPerc.C58_averaged_table"
   ],
   "note": ""
  },
  {
   "property": "C59",
   "status": "proved",
   "theorems": [
    "SqPerc.C59_replay_exact",
    "SqPerc.C59_replay_L1",
    "SqPerc.C59_replay_L1_entropy",
    "SqPerc.C59_L2_not_replayable"
   ],
   "note": ""
  },
  {
   "property": "C60",
   "status": "proved",
   "theorems": [
    "SqPerc.C60_scan_exact",
    "SqPerc.C60_scan_passes",
    "SqPerc.C60_scan_before_wrapping",
    "SqPerc.C60_scan_can_fail"
   ],
   "note": ""
  },
  {
   "property": "C61",
   "status": "proved",
   "theorems": [
    "SqPerc.C61_run_with_generator",
    "SqPerc.C61_sp_run_with_generator",
    "SqPerc.C61_single_with_generator",
    "SqPerc.C61_seed_reproducible",
    "SqPerc.C61_realisation_depends",
    "SqPerc.C61_l0_order_matters",
    "SqPerc.C61_unseeded_differs"
   ],
   "note": ""
  },
  {
   "property": "C62",
   "status": "proved",
   "theorems": [
    "SqPerc.C62_names_distinct",
    "SqPerc.C62_all_tables_survive",
    "SqPerc.C62_same_second_overwrites"
   ],
   "note": ""
  },
  {
   "property": "C63",
   "status": "proved",
   "theorems": [
    "SqPerc.C63_closing_site",
    "SqPerc.C63_detection_optional",
    "SqPerc.C63_last_call"
   ],
   "note": ""
  },
  {
   "property": "C64",
   "status": "proved",
   "theorems": [
    "SqPerc.C64_seed",
    "SqPerc.C64_seed_small",
    "SqPerc.C64_reset",
    "SqPerc.C64_reset_small",
    "SqPerc.C64_lengths",
    "SqPerc.C64_parametrize",
    "SqPerc.C64_one_detection",
    "SqPerc.C64_config1",
    "SqPerc.C64_large_lattice",
    "SqPerc.C64_custome_lattice",
    "SqPerc.C64_test_large",
    "SqPerc.C64_different_seeds",
    "SqPerc.C64_custome_lattices",
    "SqPerc.C64_multiple_seeds",
    "SqPerc.C64_lattice",
    "SqPerc.C64_scan_sites",
    "SqPerc.C64_scan_bonds",
    "SqPerc.C64_neighbor_count",
    "SqPerc.C64_filled_check",
    "SqPerc.C64_relative_check",
    "SqPerc.C64_config2_l0",
    "SqPerc.C64_config2_l1l2",
    "SqPerc.C64_scans"
   ],
   "note": ""
  },
  {
   "property": "C65",
   "status": "proved",
   "theorems": [
    "SqPerc.C65_drift",
    "SqPerc.C65_v1",
    "SqPerc.C65_run",
    "SqPerc.C65_agree",
    "SqPerc.C65_double"
   ],
   "note": ""
  },
  {
   "property": "C66",
   "status": "proved",
   "theorems": [
    "SqPerc.C66_gids",
    "SqPerc.C66_relative",
    "SqPerc.C66_gids_determined",
    "SqPerc.C66_relative_determined",
    "SqPerc.C66_view",
    "SqPerc.C66_never_raises",
    "SqPerc.C66_list_sites",
    "SqPerc.C66_list_bonds",
    "SqPerc.C66_print_sites",
    "SqPerc.C66_print_bonds"
   ],
   "note": ""
  },
  {
   "property": "C67",
   "status": "proved",
   "theorems": [
    "SqPerc.C67_view_cluster",
    "SqPerc.C67_determined"
   ],
   "note": ""
  },
  {
   "property": "C68",
   "status": "proved",
   "theorems": [
    "SqPerc.C68_observables",
    "SqPerc.C68_clusters",
    "SqPerc.C68_entropy",
    "SqPerc.C68_run_once",
    "SqPerc.C68_shortest_path",
    "SqPerc.C68_symmetries"
   ],
   "note": ""
  },
  {
   "property": "C69",
   "status": "proved",
   "theorems": [
    "SqPerc.C69_table",
    "SqPerc.C69_critical",
    "SqPerc.C69_shortest_path"
   ],
   "note": ""
  },
  {
   "property": "C70",
   "status": "proved",
   "theorems": [
    "SqPerc.C70_l1",
    "SqPerc.C70_l2",
    "SqPerc.C70_total",
    "SqPerc.C70_uniform",
    "SqPerc.C70_range",
    "SqPerc.C70_l2_boundary"
   ],
   "note": ""
  },
  {
   "property": "C71",
   "status": "proved",
   "theorems": [
    "SqPerc.C71_place_plain",
    "SqPerc.C71_place_l1l2",
    "SqPerc.C71_detect",
    "SqPerc.C71_set_lists",
    "SqPerc.C71_reset_shuffle",
    "SqPerc.C71_swap",
    "SqPerc.C71_place_raised",
    "SqPerc.C71_run_raised",
    "SqPerc.C71_run_duplicate",
    "SqPerc.C71_monotone",
    "SqPerc.C71_entropy",
    "SqPerc.C71_run_raised_l1l2",
    "SqPerc.C71_test_raised",
    "SqPerc.C71_sp_raised",
    "SqPerc.C71_swap_raised"
   ],
   "note": ""
  },
  {
   "property": "C72",
   "status": "proved",
   "theorems": [
    "SqPerc.C72_seed",
    "SqPerc.C72_new",
    "SqPerc.C72_reset",
    "SqPerc.C72_reset_default",
    "SqPerc.C72_place_plain",
    "SqPerc.C72_place_l1l2",
    "SqPerc.C72_run_plain",
    "SqPerc.C72_ensemble",
    "SqPerc.C72_sp_ensemble"
   ],
   "note": ""
  },
  {
   "property": "C73",
   "status": "proved",
   "theorems": [
    "SqPerc.C73_detect",
    "SqPerc.C73_wrapping_cluster",
    "SqPerc.C73_site_count",
    "SqPerc.C73_relative_index"
   ],
   "note": ""
  },
  {
   "property": "C74",
   "status": "proved",
   "theorems": [
    "SqPerc.C74_private",
    "SqPerc.C74_call",
    "SqPerc.C74_call_total",
    "SqPerc.C74_set",
    "SqPerc.C74_lists",
    "SqPerc.C74_set_reference",
    "SqPerc.C74_set_indices",
    "SqPerc.C74_reset_plain",
    "SqPerc.C74_reset_l1l2",
    "SqPerc.C74_given_order",
    "SqPerc.C74_sequence",
    "SqPerc.C74_interference",
    "SqPerc.C74_overwritten"
   ],
   "note": ""
  },
  {
   "property": "C75",
   "status": "proved",
   "theorems": [
    "SqPerc.C75_site_percolation",
    "SqPerc.C75_relative_index",
    "SqPerc.C75_detect_base",
    "SqPerc.C75_detect_base_entropy",
    "SqPerc.C75_relative_index_l0",
    "SqPerc.C75_reset_relative_index",
    "SqPerc.C75_detect_l0",
    "SqPerc.C75_L1",
    "SqPerc.C75_detect_l1",
    "SqPerc.C75_L2",
    "SqPerc.C75_shortest_path",
    "SqPerc.C75_sp_print",
    "SqPerc.C75_messages"
   ],
   "note": ""
  },
  {
   "property": "C76",
   "status": "proved",
   "theorems": [
    "SqPerc.C76_bond",
    "SqPerc.C76_site",
    "SqPerc.C76_doubling",
    "SqPerc.C76_total",
    "SqPerc.C76_run"
   ],
   "note": ""
  },
  {
   "property": "C77",
   "status": "proved",
   "theorems": [
    "SqPerc.C77_values",
    "SqPerc.C77_extends",
    "SqPerc.C77_reset",
    "SqPerc.C77_kept",
    "SqPerc.C77_final",
    "SqPerc.C77_occupation",
    "SqPerc.C77_write",
    "SqPerc.C77_collect"
   ],
   "note": ""
  },
  {
   "property": "C78",
   "status": "proved",
   "theorems": [
    "SqPerc.C78_v4",
    "SqPerc.C78_v3",
    "SqPerc.C78_v4_nothing",
    "SqPerc.C78_v4_zero",
    "SqPerc.C78_threads",
    "SqPerc.C78_fixed_threads",
    "SqPerc.C78_threads_class",
    "SqPerc.C78_simulations",
    "SqPerc.C78_shortest_path",
    "SqPerc.C78_single",
    "SqPerc.C78_main",
    "SqPerc.C78_print_hi",
    "SqPerc.C78_print_hi_needs"
   ],
   "note": ""
  },
  {
   "property": "C79",
   "status": "proved",
   "theorems": [
    "SqPerc.C79_ends",
    "SqPerc.C79_l0",
    "SqPerc.C79_l1l2",
    "SqPerc.C79_placed"
   ],
   "note": ""
  },
  {
   "property": "C80",
   "status": "proved",
   "theorems": [
    "SqPerc.C80_complete",
    "SqPerc.C80_run_once",
    "SqPerc.C80_test_L1",
    "SqPerc.C80_test_L2"
   ],
   "note": ""
  },
  {
   "property": "C81",
   "status": "proved",
   "theorems": [
    "SqPerc.C81_one_root",
    "SqPerc.C81_walk_from_root",
    "SqPerc.C81_small",
    "SqPerc.C81_place"
   ],
   "note": ""
  },
  {
   "property": "C82",
   "status": "proved",
   "theorems": [
    "SqPerc.C82_get_cluster",
    "SqPerc.C82_cluster_text",
    "SqPerc.C82_new_cluster_text",
    "SqPerc.C82_add_bonds",
    "SqPerc.C82_nn_count",
    "SqPerc.C82_cluster_of_site",
    "SqPerc.C82_by_index",
    "SqPerc.C82_id_lists",
    "SqPerc.C82_site_gids",
    "SqPerc.C82_site_gids_count",
    "SqPerc.C82_change",
    "SqPerc.C82_bond_percolation",
    "SqPerc.C82_mtest_neighbors",
    "SqPerc.C82_connected_sites",
    "SqPerc.C82_bond_ends",
    "SqPerc.C82_site_bonds",
    "SqPerc.C82_filled",
    "SqPerc.C82_ends_full"
   ],
   "note": ""
  },
  {
   "property": "C83",
   "status": "proved",
   "theorems": [
    "SqPerc.C83_drivers",
    "SqPerc.C83_same_critical",
    "SqPerc.C83_worker",
    "SqPerc.C83_single"
   ],
   "note": ""
  },
  {
   "property": "C84",
   "status": "proved",
   "theorems": [
    "SqPerc.C84_vertical",
    "SqPerc.C84_horizontal",
    "SqPerc.C84_few",
    "SqPerc.C84_defaults",
    "SqPerc.C84_level",
    "SqPerc.C84_no_axes",
    "SqPerc.C84_plot_result",
    "SqPerc.C84_plots"
   ],
   "note": ""
  },
  {
   "property": "C85",
   "status": "proved",
   "theorems": [
    "SqPerc.C85_test2",
    "SqPerc.C85_test",
    "SqPerc.C85_options",
    "SqPerc.C85_no_value",
    "SqPerc.C85_short_form",
    "SqPerc.C85_stops",
    "SqPerc.C85_split"
   ],
   "note": ""
  },
  {
   "property": "C86",
   "status": "proved",
   "theorems": [
    "SqPerc.C86_small",
    "SqPerc.C86_bound",
    "SqPerc.C86_three_pc",
    "SqPerc.C86_three_sp"
   ],
   "note": ""
  },
  {
   "property": "C87",
   "status": "proved",
   "theorems": [
    "SqPerc.C87_three",
    "SqPerc.C87_variance",
    "SqPerc.C87_deviation",
    "SqPerc.C87_pc_variance"
   ],
   "note": ""
  },
  {
   "property": "C88",
   "status": "proved",
   "theorems": [
    "SqPerc.C88_table_of",
    "SqPerc.C88_table",
    "SqPerc.C88_increasing",
    "SqPerc.C88_double"
   ],
   "note": ""
  },
  {
   "property": "C89",
   "status": "proved",
   "theorems": [
    "SqPerc.C89_number",
    "SqPerc.C89_exact",
    "SqPerc.C89_monotone",
    "SqPerc.C89_table",
    "SqPerc.C89_files_of",
    "SqPerc.C89_files",
    "SqPerc.C89_path_file",
    "SqPerc.C89_recovered",
    "SqPerc.C89_tell",
    "SqPerc.C89_path_tell",
    "SqPerc.C89_double",
    "SqPerc.C89_path_double"
   ],
   "note": ""
  },
  {
   "property": "C90",
   "status": "proved",
   "theorems": [
    "SqPerc.C90_header",
    "SqPerc.C90_cross",
    "SqPerc.C90_files",
    "SqPerc.C90_path_file",
    "SqPerc.C90_descriptions",
    "SqPerc.C90_test",
    "SqPerc.C90_cross_values",
    "SqPerc.C90_unreadable",
    "SqPerc.C90_test_reals",
    "SqPerc.C90_test_passes",
    "SqPerc.C90_listed",
    "SqPerc.C90_test_all",
    "SqPerc.C90_test_exact"
   ],
   "note": ""
  },
  {
   "property": "C91",
   "status": "proved",
   "theorems": [
    "SqPerc.C91_average",
    "SqPerc.C91_law",
    "SqPerc.C91_objects",
    "SqPerc.C91_density",
    "SqPerc.C91_position",
    "SqPerc.C91_l2",
    "SqPerc.C91_l2_symmetries",
    "SqPerc.C91_l2_boundary",
    "SqPerc.C91_l1_sample",
    "SqPerc.C91_modulus"
   ],
   "note": ""
  },
  {
   "property": "C92",
   "status": "proved",
   "theorems": [
    "SqPerc.C92_calls",
    "SqPerc.C92_run_once",
    "SqPerc.C92_realisation",
    "SqPerc.C92_sample"
   ],
   "note": ""
  },
  {
   "property": "C93",
   "status": "proved",
   "theorems": [
    "SqPerc.C93_table",
    "SqPerc.C93_variance",
    "SqPerc.C93_deviation",
    "SqPerc.C93_independent",
    "SqPerc.C93_symmetric"
   ],
   "note": ""
  },
  {
   "property": "C94",
   "status": "proved",
   "theorems": [
    "SqPerc.C94_parallel",
    "SqPerc.C94_unique",
    "SqPerc.C94_both_lines",
    "SqPerc.C94_at_most",
    "SqPerc.C94_at_pc",
    "SqPerc.C94_every_second_row",
    "SqPerc.C94_not_largest",
    "SqPerc.C94_plane"
   ],
   "note": ""
  },
  {
   "property": "C95",
   "status": "proved",
   "theorems": [
    "SqPerc.C95_detect",
    "SqPerc.C95_after_wrapping",
    "SqPerc.C95_any_history",
    "SqPerc.C95_empty_lines",
    "SqPerc.C95_blocked"
   ],
   "note": ""
  },
  {
   "property": "C96",
   "status": "proved",
   "theorems": [
    "SqPerc.C96_must_wrap",
    "SqPerc.C96_critical_upper",
    "SqPerc.C96_pc_upper",
    "SqPerc.C96_attained"
   ],
   "note": ""
  },
  {
   "property": "C97",
   "status": "proved",
   "theorems": [
    "SqPerc.C97_any_history",
    "SqPerc.C97_clusters",
    "SqPerc.C97_call",
    "SqPerc.C97_rough",
    "SqPerc.C97_owned",
    "SqPerc.C97_lengths"
   ],
   "note": ""
  },
  {
   "property": "C98",
   "status": "proved",
   "theorems": [
    "SqPerc.C98_critical",
    "SqPerc.C98_shortest_path",
    "SqPerc.C98_limit",
    "SqPerc.C98_limit_shortest_path"
   ],
   "note": ""
  },
  {
   "property": "C99",
   "status": "proved",
   "theorems": [
    "SqPerc.C99_bound",
    "SqPerc.C99_limit"
   ],
   "note": ""
  },
  {
   "property": "C100",
   "status": "proved",
   "theorems": [
    "SqPerc.C100_table",
    "SqPerc.C100_limit"
   ],
   "note": ""
  },
  {
   "property": "C101",
   "status": "proved",
   "theorems": [
    "SqPerc.C101_few_empty",
    "SqPerc.C101_entropy_largest",
    "SqPerc.C101_near_full",
    "SqPerc.C101_table"
   ],
   "note": ""
  },
  {
   "property": "C102",
   "status": "proved",
   "theorems": [
    "SqPerc.C102_unique",
    "SqPerc.C102_surrounded",
    "SqPerc.C102_table",
    "SqPerc.C102_limit",
    "SqPerc.C102_dense"
   ],
   "note": ""
  },
  {
   "property": "C103",
   "status": "proved",
   "theorems": [
    "SqPerc.C103_list",
    "SqPerc.C103_apart",
    "SqPerc.C103_append",
    "SqPerc.C103_wrapping",
    "SqPerc.C103_calls",
    "SqPerc.C103_same"
   ],
   "note": ""
  },
  {
   "property": "C104",
   "status": "proved",
   "theorems": [
    "SqPerc.C104_undisturbed",
    "SqPerc.C104_clusters",
    "SqPerc.C104_wrapping",
    "SqPerc.C104_place",
    "SqPerc.C104_raises_plain",
    "SqPerc.C104_raises_l1l2",
    "SqPerc.C104_raised"
   ],
   "note": ""
  },
  {
   "property": "C105",
   "status": "proved",
   "theorems": [
    "SqPerc.C105_l0",
    "SqPerc.C105_l1l2",
    "SqPerc.C105_enough",
    "SqPerc.C105_enough_l1l2",
    "SqPerc.C105_shortest_path"
   ],
   "note": ""
  },
  {
   "property": "C106",
   "status": "proved",
   "theorems": [
    "SqPerc.C106_correctly_rounded",
    "SqPerc.C106_entropy",
    "SqPerc.C106_run",
    "SqPerc.C106_prob",
    "SqPerc.C106_negative_zero",
    "SqPerc.C106_table",
    "SqPerc.C106_files",
    "SqPerc.C106_path_file",
    "SqPerc.C106_signs",
    "SqPerc.C106_ties",
    "SqPerc.C106_overflow",
    "SqPerc.C106_special"
   ],
   "note": ""
  },
  {
   "property": "C107",
   "status": "proved",
   "theorems": [
    "SqPerc.C107_same_orders",
    "SqPerc.C107_exact",
    "SqPerc.C107_l0",
    "SqPerc.C107_l1l2",
    "SqPerc.C107_concrete",
    "SqPerc.C107_path_exact",
    "SqPerc.C107_shortest_path"
   ],
   "note": ""
  },
  {
   "property": "C108",
   "status": "proved",
   "theorems": [
    "SqPerc.C108_growth",
    "SqPerc.C108_files_l1l2",
    "SqPerc.C108_request",
    "SqPerc.C108_below",
    "SqPerc.C108_answers",
    "SqPerc.C108_new",
    "SqPerc.C108_plain",
    "SqPerc.C108_path",
    "SqPerc.C108_files",
    "SqPerc.C108_files_path",
    "SqPerc.C108_concrete"
   ],
   "note": ""
  },
  {
   "property": "C109",
   "status": "proved",
   "theorems": [
    "SqPerc.C109_read_repr",
    "SqPerc.C109_injective",
    "SqPerc.C109_shortest",
    "SqPerc.C109_form",
    "SqPerc.C109_layout",
    "SqPerc.C109_signs",
    "SqPerc.C109_decimal",
    "SqPerc.C109_threshold",
    "SqPerc.C109_threshold_ten",
    "SqPerc.C109_finite",
    "SqPerc.C109_file",
    "SqPerc.C109_near",
    "SqPerc.C109_test_passes"
   ],
   "note": ""
  },
  {
   "property": "C110",
   "status": "proved",
   "theorems": [
    "SqPerc.C110_seed",
    "SqPerc.C110_sign",
    "SqPerc.C110_twin",
    "SqPerc.C110_runs",
    "SqPerc.C110_same_results",
    "SqPerc.C110_digits",
    "SqPerc.C110_distinct",
    "SqPerc.C110_alive"
   ],
   "note": ""
  },
  {
   "property": "C111",
   "status": "proved",
   "theorems": [
    "SqPerc.C111_uniform",
    "SqPerc.C111_measure",
    "SqPerc.C111_law",
    "SqPerc.C111_error",
    "SqPerc.C111_new",
    "SqPerc.C111_plain",
    "SqPerc.C111_live",
    "SqPerc.C111_sequences",
    "SqPerc.C111_state",
    "SqPerc.C111_periodic",
    "SqPerc.C111_orders"
   ],
   "note": ""
  },
  {
   "property": "C112",
   "status": "proved",
   "theorems": [
    "SqPerc.C112_orders",
    "SqPerc.C112_shortest_path",
    "SqPerc.C112_relative_index_l0",
    "SqPerc.C112_reset_relative_index",
    "SqPerc.C112_detect_l0",
    "SqPerc.C112_simulations",
    "SqPerc.C112_simulations_files"
   ],
   "note": ""
  },
  {
   "property": "C113",
   "status": "proved",
   "theorems": [
    "SqPerc.C113_test_L1",
    "SqPerc.C113_detect_L1",
    "SqPerc.C113_test_L2",
    "SqPerc.C113_realisation",
    "SqPerc.C113_ensemble",
    "SqPerc.C113_order_L2",
    "SqPerc.C113_evaluated_L1",
    "SqPerc.C113_evaluated_ensembles"
   ],
   "note": ""
  },
  {
   "property": "C114",
   "status": "proved",
   "theorems": [
    "SqPerc.C114_replay",
    "SqPerc.C114_test",
    "SqPerc.C114_file5",
    "SqPerc.C114_file10",
    "SqPerc.C114_replays"
   ],
   "note": ""
  }
 ]
}