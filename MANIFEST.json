{
 "claims": [
  {
   "property": "C01",
   "status": "proved",
   "theorems": [
    "Festim.Props.C01_never_past_final",
    "Festim.Props.C01_overshoot"
   ],
   "note": ""
  },
  {
   "property": "C02",
   "status": "proved",
   "theorems": [
    "Festim.Props.C02_times_increase"
   ],
   "note": ""
  },
  {
   "property": "C03",
   "status": "proved",
   "theorems": [
    "Festim.Props.C03_ends_at_final"
   ],
   "note": ""
  },
  {
   "property": "C04",
   "status": "proved",
   "theorems": [
    "Festim.Props.C04_uniform_grid"
   ],
   "note": ""
  },
  {
   "property": "C05",
   "status": "proved",
   "theorems": [
    "Festim.Props.C05_crossing_only_from_band",
    "Festim.Props.C05_milestones_hit_or_band"
   ],
   "note": ""
  },
  {
   "property": "C06",
   "status": "proved",
   "theorems": [
    "Festim.Props.C06_milestones_reached",
    "Festim.Props.C06_unseparated_counterexample"
   ],
   "note": ""
  },
  {
   "property": "C07",
   "status": "proved",
   "theorems": [
    "Festim.Props.C07_max_stepsize",
    "Festim.Props.C07_first_step",
    "Festim.Props.C07_constructor",
    "Festim.Props.C07_ignored_without_ratio",
    "Festim.Props.C07_stop_max_alone"
   ],
   "note": ""
  },
  {
   "property": "C08",
   "status": "proved",
   "theorems": [
    "Festim.Props.C08_growth"
   ],
   "note": ""
  },
  {
   "property": "C09",
   "status": "proved",
   "theorems": [
    "Festim.Props.C09_accept_iff",
    "Festim.Props.C09_accepted_are_converged",
    "Festim.Props.C09_diverged_without_dt_min",
    "Festim.Props.C09_stopped"
   ],
   "note": ""
  },
  {
   "property": "C10",
   "status": "proved",
   "theorems": [
    "Festim.Props.C10_divergence_raises",
    "Festim.Props.C10_bounded_attempts",
    "Festim.Props.C10_factor"
   ],
   "note": ""
  },
  {
   "property": "C11",
   "status": "proved",
   "theorems": [
    "Festim.Props.C11_hang_not_adaptive",
    "Festim.Props.C11_hang_adaptive",
    "Festim.Props.C11_exact",
    "Festim.Props.C11_exact_plain"
   ],
   "note": ""
  },
  {
   "property": "C12",
   "status": "proved",
   "theorems": [
    "Festim.Props.C12_increments_sum",
    "Festim.Props.C12_first_attempt",
    "Festim.Props.C12_retried_steps_shorter"
   ],
   "note": ""
  },
  {
   "property": "C13",
   "status": "proved",
   "theorems": [
    "Festim.Props.C13_constant_stepsize",
    "Festim.Props.C13_uses_next_step",
    "Festim.Props.C13_density_clock",
    "Festim.Props.C13_adaptive_mismatch"
   ],
   "note": ""
  },
  {
   "property": "C14",
   "status": "proved",
   "theorems": [
    "Festim.Props.C14_terminates",
    "Festim.Props.C14_bound_exists",
    "Festim.Props.C14_zeno"
   ],
   "note": ""
  },
  {
   "property": "C15",
   "status": "proved",
   "theorems": [
    "Festim.Props.C15_dt_min_unused_when_converging",
    "Festim.Props.C15_raise_iff"
   ],
   "note": ""
  },
  {
   "property": "C16",
   "status": "proved",
   "theorems": [
    "Festim.Props.C16_xdmf_cadence",
    "Festim.Props.C16_mode_setter",
    "Festim.Props.C16_append_flags"
   ],
   "note": ""
  },
  {
   "property": "C17",
   "status": "proved",
   "theorems": [
    "Festim.Props.C17_last_once",
    "Festim.Props.C17_overshoot_writes_nothing",
    "Festim.Props.C17_steady_raises"
   ],
   "note": ""
  },
  {
   "property": "C18",
   "status": "proved",
   "theorems": [
    "Festim.Props.C18_table",
    "Festim.Props.C18_empty_has_no_header"
   ],
   "note": ""
  },
  {
   "property": "C19",
   "status": "proved",
   "theorems": [
    "Festim.Props.C19_csv_content",
    "Festim.Props.C19_csv_untouched",
    "Festim.Props.C19_zero_period",
    "Festim.Props.C19_bare_filename"
   ],
   "note": ""
  },
  {
   "property": "C20",
   "status": "proved",
   "theorems": [
    "Festim.Props.C20_final_csv_complete",
    "Festim.Props.C20_periodic_csv",
    "Festim.Props.C20_periodic_loses_last_row"
   ],
   "note": ""
  },
  {
   "property": "C21",
   "status": "proved",
   "theorems": [
    "Festim.Props.C21_txt_columns"
   ],
   "note": ""
  },
  {
   "property": "C22",
   "status": "proved",
   "theorems": [
    "Festim.Props.C22_times_become_milestones",
    "Festim.Props.C22_requested_times_exported",
    "Festim.Props.C22_sliver_counterexample"
   ],
   "note": ""
  },
  {
   "property": "C23",
   "status": "proved",
   "theorems": [
    "Festim.Props.C23_txt_content",
    "Festim.Props.C23_txt_untouched",
    "Festim.Props.C23_complete_without_times",
    "Festim.Props.C23_last_request_unreached",
    "Festim.Props.C23_largest_request"
   ],
   "note": ""
  },
  {
   "property": "C24",
   "status": "proved",
   "theorems": [
    "Festim.Props.C24_sorted_complete",
    "Festim.Props.C24_unfiltered",
    "Festim.Props.C24_interfaces_kept",
    "Festim.Props.C24_exact_border",
    "Festim.Props.C24_duplicates_only_at_interfaces"
   ],
   "note": ""
  },
  {
   "property": "C25",
   "status": "proved",
   "theorems": [
    "Festim.Props.C25_reinitialised_table",
    "Festim.Props.C25_counter_not_reset",
    "Festim.Props.C25_second_run_empty_table",
    "Festim.Props.C25_reinitialised_txt",
    "Festim.Props.C25_xdmf_appends"
   ],
   "note": ""
  },
  {
   "property": "C26",
   "status": "proved",
   "theorems": [
    "Festim.Props.C26_accepts_iff_tiles",
    "Festim.Props.C26_total_length",
    "Festim.Props.C26_degenerate_order"
   ],
   "note": ""
  },
  {
   "property": "C27",
   "status": "proved",
   "theorems": [
    "Festim.Props.C27_interior",
    "Festim.Props.C27_total",
    "Festim.Props.C27_nested_single_crashes",
    "Festim.Props.C27_short_id_list"
   ],
   "note": ""
  },
  {
   "property": "C28",
   "status": "proved",
   "theorems": [
    "Festim.Props.C28_cell_markers",
    "Festim.Props.C28_negative_cells",
    "Festim.Props.C28_single_material"
   ],
   "note": ""
  },
  {
   "property": "C29",
   "status": "proved",
   "theorems": [
    "Festim.Props.C29_unique_ids",
    "Festim.Props.C29_lookup_unique",
    "Festim.Props.C29_lookup_missing"
   ],
   "note": ""
  },
  {
   "property": "C30",
   "status": "proved",
   "theorems": [
    "Festim.Props.C30_all_or_none",
    "Festim.Props.C30_names",
    "Festim.Props.C30_solubility",
    "Festim.Props.C30_missing_named",
    "Festim.Props.C30_missing"
   ],
   "note": ""
  },
  {
   "property": "C31",
   "status": "proved",
   "theorems": [
    "Festim.Props.C31_order_duplicates",
    "Festim.Props.C31_cells",
    "Festim.Props.C31_extent"
   ],
   "note": ""
  },
  {
   "property": "C32",
   "status": "proved",
   "theorems": [
    "Festim.Props.C32_surface_markers",
    "Festim.Props.C32_short_mesh",
    "Festim.Props.C32_marker_list"
   ],
   "note": ""
  },
  {
   "property": "C33",
   "status": "proved",
   "theorems": [
    "Festim.Props.C33_lookups_agree",
    "Festim.Props.C33_lookup_sound",
    "Festim.Props.C33_other_tag_none"
   ],
   "note": ""
  },
  {
   "property": "C34",
   "status": "proved",
   "theorems": [
    "Festim.Props.C34_accepts_iff",
    "Festim.Props.C34_routing",
    "Festim.Props.C34_exactly_one",
    "Festim.Props.C34_errors"
   ],
   "note": ""
  },
  {
   "property": "C35",
   "status": "proved",
   "theorems": [
    "Festim.Props.C35_accepts_iff",
    "Festim.Props.C35_reported",
    "Festim.Props.C35_no_double_dirichlet",
    "Festim.Props.C35_string_field_mixed",
    "Festim.Props.C35_aliases_accepted",
    "Festim.Props.C35_same_object_twice"
   ],
   "note": ""
  },
  {
   "property": "C36",
   "status": "proved",
   "theorems": [
    "Festim.Props.C36_flux_routing",
    "Festim.Props.C36_one_term_per_surface",
    "Festim.Props.C36_dropped_iff"
   ],
   "note": ""
  },
  {
   "property": "C37",
   "status": "proved",
   "theorems": [
    "Festim.Props.C37_default_ids_agree",
    "Festim.Props.C37_export_by_id",
    "Festim.Props.C37_agree_iff",
    "Festim.Props.C37_stale_ids",
    "Festim.Props.C37_colliding_ids"
   ],
   "note": ""
  },
  {
   "property": "C38",
   "status": "proved",
   "theorems": [
    "Festim.Props.C38_components",
    "Festim.Props.C38_read_back",
    "Festim.Props.C38_element_kind"
   ],
   "note": ""
  },
  {
   "property": "C39",
   "status": "proved",
   "theorems": [
    "Festim.Props.C39_initial_state",
    "Festim.Props.C39_default_ids",
    "Festim.Props.C39_custom_ids",
    "Festim.Props.C39_custom_ids_wrong"
   ],
   "note": ""
  },
  {
   "property": "C40",
   "status": "proved",
   "theorems": [
    "Festim.Props.C40_program",
    "Festim.Props.C40_classes",
    "Festim.Props.C40_only_valid",
    "Festim.Props.C40_constructor",
    "Festim.Props.C40_append_insert",
    "Festim.Props.C40_positions",
    "Festim.Props.C40_extend_not_atomic",
    "Festim.Props.C40_iadd_unchecked"
   ],
   "note": ""
  },
  {
   "property": "C41",
   "status": "proved",
   "theorems": [
    "Festim.Props.C41_kinetics_cancels",
    "Festim.Props.C41_weak_form"
   ],
   "note": ""
  },
  {
   "property": "C42",
   "status": "proved",
   "theorems": [
    "Festim.Props.C42_residual_is_balance",
    "Festim.Props.C42_balance",
    "Festim.Props.C42_run",
    "Festim.Props.C42_heat_solver_defect",
    "Festim.Props.C42_line",
    "Festim.Props.C42_spherical_defect"
   ],
   "note": ""
  },
  {
   "property": "C43",
   "status": "proved",
   "theorems": [
    "Festim.Props.C43_measure",
    "Festim.Props.C43_expanded",
    "Festim.Props.C43_unknown_type"
   ],
   "note": ""
  },
  {
   "property": "C44",
   "status": "proved",
   "theorems": [
    "Festim.Props.C44_no_trapping_outside",
    "Festim.Props.C44_transient_unchanged",
    "Festim.Props.C44_steady_zero"
   ],
   "note": ""
  },
  {
   "property": "C45",
   "status": "proved",
   "theorems": [
    "Festim.Props.C45_equation",
    "Festim.Props.C45_equation_steady",
    "Festim.Props.C45_value",
    "Festim.Props.C45_occupancy",
    "Festim.Props.C45_run",
    "Festim.Props.C45_steady"
   ],
   "note": ""
  },
  {
   "property": "C46",
   "status": "proved",
   "theorems": [
    "Festim.Props.C46_equation",
    "Festim.Props.C46_density_bounds",
    "Festim.Props.C46_run"
   ],
   "note": ""
  },
  {
   "property": "C47",
   "status": "proved",
   "theorems": [
    "Festim.Props.C47_equation",
    "Festim.Props.C47_density_bounds",
    "Festim.Props.C47_run"
   ],
   "note": ""
  },
  {
   "property": "C48",
   "status": "proved",
   "theorems": [
    "Festim.Props.C48_exchange_cancels",
    "Festim.Props.C48_adsorbed_equation",
    "Festim.Props.C48_solute_equation",
    "Festim.Props.C48_chemical_pot_defect"
   ],
   "note": ""
  },
  {
   "property": "C49",
   "status": "proved",
   "theorems": [
    "Festim.Props.C49_inventory_change",
    "Festim.Props.C49_sign",
    "Festim.Props.C49_natural_condition"
   ],
   "note": ""
  },
  {
   "property": "C50",
   "status": "proved",
   "theorems": [
    "Festim.Props.C50_stable",
    "Festim.Props.C50_unique"
   ],
   "note": ""
  },
  {
   "property": "C51",
   "status": "proved",
   "theorems": [
    "Festim.Props.C51_projection",
    "Festim.Props.C51_round_trip",
    "Festim.Props.C51_exists_unique",
    "Festim.Props.ThetaCase.C51_interface_defect"
   ],
   "note": ""
  },
  {
   "property": "C52",
   "status": "proved",
   "theorems": [
    "Festim.Props.C52_same_pressure",
    "Festim.Props.C52_converse",
    "Festim.Props.C52_jump"
   ],
   "note": ""
  },
  {
   "property": "C53",
   "status": "proved",
   "theorems": [
    "Festim.Props.C53_property_fields",
    "Festim.Props.C53_unknown_subdomain",
    "Festim.Props.C53_same_concentration",
    "Festim.Props.C53_solubility_as_function",
    "Festim.Props.C53_law_markers",
    "Festim.Props.C53_post_processed"
   ],
   "note": ""
  },
  {
   "property": "C54",
   "status": "proved",
   "theorems": [
    "Festim.Props.C54_imposed_concentration",
    "Festim.Props.C54_gas_equilibrium",
    "Festim.Props.C54_not_converted",
    "Festim.Props.C54_custom_fails"
   ],
   "note": ""
  },
  {
   "property": "C55",
   "status": "proved",
   "theorems": [
    "Festim.Props.C55_driver",
    "Festim.Props.C55_driver_exact",
    "Festim.Props.C55_analytical",
    "Festim.Props.C55_constant",
    "Festim.Props.C55_heat"
   ],
   "note": ""
  },
  {
   "property": "C56",
   "status": "proved",
   "theorems": [
    "Festim.Props.C56_steady_sound",
    "Festim.Props.C56_symbol_detected",
    "Festim.Props.C56_exact",
    "Festim.Props.C56_not_complete",
    "Festim.Props.C56_run"
   ],
   "note": ""
  },
  {
   "property": "C57",
   "status": "proved",
   "theorems": [
    "Festim.Props.C57_registry_complete",
    "Festim.Props.C57_heat_registry",
    "Festim.Props.C57_hydrogen_data",
    "Festim.Props.C57_extrinsic_frozen",
    "Festim.Props.C57_neutron_frozen",
    "Festim.Props.C57_run"
   ],
   "note": ""
  },
  {
   "property": "C58",
   "status": "proved",
   "theorems": [
    "Festim.Props.C58_weak_form",
    "Festim.Props.C58_balance",
    "Festim.Props.C58_steady",
    "Festim.Props.C58_run",
    "Festim.Props.C58_cycle_defect",
    "Festim.Props.C58_unique",
    "Festim.Props.C58_monotone"
   ],
   "note": ""
  },
  {
   "property": "C59",
   "status": "proved",
   "theorems": [
    "Festim.Props.C59_rate",
    "Festim.Props.C59_step",
    "Festim.Props.C59_run",
    "Festim.Props.C59_adsorbed_does_not_decay"
   ],
   "note": ""
  },
  {
   "property": "C60",
   "status": "proved",
   "theorems": [
    "Festim.Props.C60_average_between",
    "Festim.Props.C60_surface_average_between",
    "Festim.Props.C60_total_is_average_times_measure",
    "Festim.Props.C60_empty_volume"
   ],
   "note": ""
  },
  {
   "property": "C61",
   "status": "proved",
   "theorems": [
    "Festim.Props.C61_retention_adds_up",
    "Festim.Props.C61_curvilinear_retention_fails",
    "Festim.Props.C61_order_matters"
   ],
   "note": ""
  },
  {
   "property": "C62",
   "status": "proved",
   "theorems": [
    "Festim.Props.C62_reported_is_inward_flux",
    "Festim.Props.C62_heat_flux",
    "Festim.Props.C62_documented_sign",
    "Festim.Props.C62_other_fields_fail",
    "Festim.Props.C62_missing_property",
    "Festim.Props.C62_steady_fluxes_general",
    "Festim.Props.C62_steady_fluxes"
   ],
   "note": ""
  },
  {
   "property": "C63",
   "status": "proved",
   "theorems": [
    "Festim.Props.C63_accepted_iff",
    "Festim.Props.C63_messages",
    "Festim.Props.C63_misleading_message",
    "Festim.Props.C63_increasing_ranges",
    "Festim.Props.C63_reversed_range",
    "Festim.Props.C63_full_ranges",
    "Festim.Props.C63_totals_additive",
    "Festim.Props.C63_fluxes_additive",
    "Festim.Props.C63_spherical_conventions_differ"
   ],
   "note": ""
  },
  {
   "property": "C64",
   "status": "proved",
   "theorems": [
    "Festim.Props.C64_accepts",
    "Festim.Props.C64_rejects",
    "Festim.Props.C64_singleton",
    "Festim.Props.C64_T_dt",
    "Festim.Props.C64_failed_assignment",
    "Festim.Props.C64_constructor"
   ],
   "note": ""
  },
  {
   "property": "C65",
   "status": "proved",
   "theorems": [
    "Festim.Props.C65_guards",
    "Festim.Props.C65_consistent",
    "Festim.Props.C65_initialise_iff",
    "Festim.Props.C65_no_materials",
    "Festim.Props.C65_no_materials_1d"
   ],
   "note": ""
  },
  {
   "property": "C66",
   "status": "proved",
   "theorems": [
    "Festim.Props.C66_returns_iff",
    "Festim.Props.C66_diverged",
    "Festim.Props.C66_export_raises",
    "Festim.Props.C66_csv",
    "Festim.Props.C66_last_mode",
    "Festim.Props.C66_txt_times"
   ],
   "note": ""
  },
  {
   "property": "C67",
   "status": "proved",
   "theorems": [
    "Festim.Props.C67_never_computes",
    "Festim.Props.C67_direct_call",
    "Festim.Props.C67_type_error"
   ],
   "note": ""
  },
  {
   "property": "C68",
   "status": "proved",
   "theorems": [
    "Festim.Props.C68_initial_temperature",
    "Festim.Props.C68_missing_condition"
   ],
   "note": ""
  },
  {
   "property": "C69",
   "status": "proved",
   "theorems": [
    "Festim.Props.C69_implantation",
    "Festim.Props.C69_implantation_defaults",
    "Festim.Props.C69_parameters_needed"
   ],
   "note": ""
  },
  {
   "property": "C70",
   "status": "proved",
   "theorems": [
    "Festim.Props.C70_change_of_units",
    "Festim.Props.C70_header_unit",
    "Festim.Props.C70_surface_hydrogen_wrong"
   ],
   "note": ""
  },
  {
   "property": "C71",
   "status": "proved",
   "theorems": [
    "Festim.Props.C71_missing_unreachable",
    "Festim.Props.C71_type_error"
   ],
   "note": ""
  },
  {
   "property": "C72",
   "status": "proved",
   "theorems": [
    "Festim.Props.C72_starts",
    "Festim.Props.C72_exports_see_accepted_steps",
    "Festim.Props.C72_csv",
    "Festim.Props.C72_txt"
   ],
   "note": ""
  },
  {
   "property": "C73",
   "status": "proved",
   "theorems": [
    "Festim.Props.C73_change_seen",
    "Festim.Props.C73_default_is_common",
    "Festim.Props.C73_default_shared",
    "Festim.Props.C73_defaults_apart",
    "Festim.Props.C73_isolated",
    "Festim.Props.C73_given_list"
   ],
   "note": ""
  },
  {
   "property": "C74",
   "status": "proved",
   "theorems": [
    "Festim.Props.C74_never_computed",
    "Festim.Props.C74_no_effect",
    "Festim.Props.C74_run"
   ],
   "note": ""
  },
  {
   "property": "C75",
   "status": "proved",
   "theorems": [
    "Festim.Props.C75_lower_bound",
    "Festim.Props.C75_upper_bound",
    "Festim.Props.C75_run",
    "Festim.Props.C75_steady",
    "Festim.Props.C75_steady_upper",
    "Festim.Props.C75_heat_lower_bound",
    "Festim.Props.C75_heat_upper_bound",
    "Festim.Props.C75_sharp"
   ],
   "note": ""
  },
  {
   "property": "C76",
   "status": "proved",
   "theorems": [
    "Festim.Props.C76_pointwise",
    "Festim.Props.C76_continuous_negative"
   ],
   "note": ""
  },
  {
   "property": "C77",
   "status": "proved",
   "theorems": [
    "Festim.Props.C77_adsorbed_last",
    "Festim.Props.C77_adsorbed_missing",
    "Festim.Props.C77_bulk",
    "Festim.Props.C77_inventory",
    "Festim.Props.C77_rows_balance"
   ],
   "note": ""
  },
  {
   "property": "C78",
   "status": "proved",
   "theorems": [
    "Festim.Props.C78_header_cells",
    "Festim.Props.C78_read_back",
    "Festim.Props.C78_titles",
    "Festim.Props.C78_titles_with_units",
    "Festim.Props.C78_column"
   ],
   "note": ""
  },
  {
   "property": "C79",
   "status": "proved",
   "theorems": [
    "Festim.Props.C79_finds",
    "Festim.Props.C79_shape",
    "Festim.Props.C79_surfaces_and_volumes",
    "Festim.Props.C79_alone",
    "Festim.Props.C79_fields_literal"
   ],
   "note": ""
  },
  {
   "property": "C80",
   "status": "proved",
   "theorems": [
    "Festim.Props.C80_python_floats",
    "Festim.Props.C80_exact",
    "Festim.Props.C80_final_time",
    "Festim.Props.C80_past_final_time",
    "Festim.Props.C80_monotone",
    "Festim.Props.C80_stalled_times",
    "Festim.Props.C80_stall_for_ever",
    "Festim.Props.C80_constant_stalls",
    "Festim.Props.C80_end",
    "Festim.Props.C80_milestones",
    "Festim.Props.C80_milestone_not_exact",
    "Festim.Props.C80_constant",
    "Festim.Props.C80_terminates"
   ],
   "note": ""
  },
  {
   "property": "C81",
   "status": "proved",
   "theorems": [
    "Festim.Props.C81_equilibrium",
    "Festim.Props.C81_implantation",
    "Festim.Props.C81_step",
    "Festim.Props.C81_steady",
    "Festim.Props.C81_steady_line",
    "Festim.Props.C81_converges"
   ],
   "note": ""
  },
  {
   "property": "C82",
   "status": "proved",
   "theorems": [
    "Festim.Props.C82_total",
    "Festim.Props.C82_zero_width",
    "Festim.Props.C82_shape",
    "Festim.Props.C82_half",
    "Festim.Props.C82_domain"
   ],
   "note": ""
  },
  {
   "property": "C83",
   "status": "proved",
   "theorems": [
    "Festim.Props.C83_clock",
    "Festim.Props.C83_fields",
    "Festim.Props.C83_lag",
    "Festim.Props.C83_positive_steps",
    "Festim.Props.C83_first_step",
    "Festim.Props.C83_steady",
    "Festim.Props.C83_occupancy"
   ],
   "note": ""
  },
  {
   "property": "C84",
   "status": "proved",
   "theorems": [
    "Festim.Props.C84_default_label",
    "Festim.Props.C84_labels_distinct",
    "Festim.Props.C84_filename",
    "Festim.Props.C84_created",
    "Festim.Props.C84_refused",
    "Festim.Props.C84_distinct_files",
    "Festim.Props.C84_written"
   ],
   "note": ""
  },
  {
   "property": "C85",
   "status": "proved",
   "theorems": [
    "Festim.Props.C85_accepted",
    "Festim.Props.C85_rejected",
    "Festim.Props.C85_resolved",
    "Festim.Props.C85_kept",
    "Festim.Props.C85_stale_steady"
   ],
   "note": ""
  },
  {
   "property": "C86",
   "status": "proved",
   "theorems": [
    "Festim.Props.C86_total",
    "Festim.Props.C86_pointwise",
    "Festim.Props.C86_single",
    "Festim.Props.C86_list"
   ],
   "note": ""
  },
  {
   "property": "C87",
   "status": "proved",
   "theorems": [
    "Festim.Props.C87_times",
    "Festim.Props.C87_labels",
    "Festim.Props.C87_temperature",
    "Festim.Props.C87_initial"
   ],
   "note": ""
  },
  {
   "property": "C88",
   "status": "proved",
   "theorems": [
    "Festim.Props.C88_rate",
    "Festim.Props.C88_linear",
    "Festim.Props.C88_one"
   ],
   "note": ""
  },
  {
   "property": "C89",
   "status": "proved",
   "theorems": [
    "Festim.Props.C89_profile",
    "Festim.Props.C89_solution",
    "Festim.Props.C89_traps",
    "Festim.Props.C89_reported",
    "Festim.Props.C89_richardson",
    "Festim.Props.C89_heat"
   ],
   "note": ""
  },
  {
   "property": "C90",
   "status": "proved",
   "theorems": [
    "Festim.Props.C90_exists",
    "Festim.Props.C90_unique",
    "Festim.Props.C90_run",
    "Festim.Props.C90_heat"
   ],
   "note": ""
  },
  {
   "property": "C91",
   "status": "proved",
   "theorems": [
    "Festim.Props.C91_rate",
    "Festim.Props.C91_limit",
    "Festim.Props.C91_heat"
   ],
   "note": ""
  },
  {
   "property": "C92",
   "status": "proved",
   "theorems": [
    "Festim.Props.C92_same_final",
    "Festim.Props.C92_first_step",
    "Festim.Props.C92_stuck"
   ],
   "note": ""
  },
  {
   "property": "C93",
   "status": "proved",
   "theorems": [
    "Festim.Props.C93_hydrogen",
    "Festim.Props.C93_heat",
    "Festim.Props.C93_warnings",
    "Festim.Props.C93_direct_check",
    "Festim.Props.C93_false_warning",
    "Festim.Props.C93_silently_ignored"
   ],
   "note": ""
  },
  {
   "property": "C94",
   "status": "proved",
   "theorems": [
    "Festim.Props.C94_hydrogen",
    "Festim.Props.C94_trap",
    "Festim.Props.C94_heat_user",
    "Festim.Props.C94_heat_first",
    "Festim.Props.C94_types"
   ],
   "note": ""
  },
  {
   "property": "C95",
   "status": "proved",
   "theorems": [
    "Festim.Props.C95_converged",
    "Festim.Props.C95_failed",
    "Festim.Props.C95_unchanged",
    "Festim.Props.C95_linear",
    "Festim.Props.C95_line",
    "Festim.Props.C95_heat"
   ],
   "note": ""
  },
  {
   "property": "C96",
   "status": "proved",
   "theorems": [
    "Festim.Props.C96_accepted",
    "Festim.Props.C96_linear"
   ],
   "note": ""
  },
  {
   "property": "C97",
   "status": "proved",
   "theorems": [
    "Festim.Props.C97_silent",
    "Festim.Props.C97_warned",
    "Festim.Props.C97_hollow_sphere",
    "Festim.Props.C97_list"
   ],
   "note": ""
  },
  {
   "property": "C98",
   "status": "proved",
   "theorems": [
    "Festim.Props.C98_equation",
    "Festim.Props.C98_same",
    "Festim.Props.C98_lists",
    "Festim.Props.C98_accepted",
    "Festim.Props.C98_refused",
    "Festim.Props.C98_first",
    "Festim.Props.C98_none"
   ],
   "note": ""
  },
  {
   "property": "C99",
   "status": "proved",
   "theorems": [
    "Festim.Props.C99_steady_after_transient",
    "Festim.Props.C99_fresh",
    "Festim.Props.C99_heat",
    "Festim.Props.C99_heat_first"
   ],
   "note": ""
  },
  {
   "property": "C100",
   "status": "proved",
   "theorems": [
    "Festim.Props.C100_attempt",
    "Festim.Props.C100_solution",
    "Festim.Props.C100_retry",
    "Festim.Props.C100_progress"
   ],
   "note": ""
  },
  {
   "property": "C101",
   "status": "proved",
   "theorems": [
    "Festim.Props.C101_step",
    "Festim.Props.C101_accuracy",
    "Festim.Props.C101_exact",
    "Festim.Props.C101_converges",
    "Festim.Props.C101_accepted",
    "Festim.Props.C101_run",
    "Festim.Props.C101_inventory",
    "Festim.Props.C101_heat"
   ],
   "note": ""
  },
  {
   "property": "C102",
   "status": "proved",
   "theorems": [
    "Festim.Props.C102_step",
    "Festim.Props.C102_accuracy",
    "Festim.Props.C102_exact",
    "Festim.Props.C102_converges"
   ],
   "note": ""
  },
  {
   "property": "C103",
   "status": "proved",
   "theorems": [
    "Festim.Props.C103_accuracy",
    "Festim.Props.C103_exact",
    "Festim.Props.C103_flux",
    "Festim.Props.C103_flux_offset",
    "Festim.Props.C103_heat",
    "Festim.Props.C103_converges"
   ],
   "note": ""
  },
  {
   "property": "C104",
   "status": "proved",
   "theorems": [
    "Festim.Props.C104_accuracy",
    "Festim.Props.C104_steady",
    "Festim.Props.C104_flux",
    "Festim.Props.C104_coupled"
   ],
   "note": ""
  },
  {
   "property": "C105",
   "status": "proved",
   "theorems": [
    "Festim.Props.C105_transient",
    "Festim.Props.C105_best",
    "Festim.Props.C105_refined",
    "Festim.Props.C105_steady",
    "Festim.Props.C105_accuracy",
    "Festim.Props.C105_heat"
   ],
   "note": ""
  },
  {
   "property": "C106",
   "status": "proved",
   "theorems": [
    "Festim.Props.C106_units",
    "Festim.Props.C106_units_solved",
    "Festim.Props.C106_heat_units",
    "Festim.Props.C106_order",
    "Festim.Props.C106_numbering",
    "Festim.Props.C106_traps_together",
    "Festim.Props.C106_trap_shared",
    "Festim.Props.C106_empty_trap",
    "Festim.Props.C106_units_surface_kinetics"
   ],
   "note": ""
  },
  {
   "property": "C107",
   "status": "proved",
   "theorems": [
    "Festim.Props.C107_slab",
    "Festim.Props.C107_over",
    "Festim.Props.C107_heat",
    "Festim.Props.C107_turned",
    "Festim.Props.C107_half",
    "Festim.Props.C107_section"
   ],
   "note": ""
  },
  {
   "property": "C108",
   "status": "proved",
   "theorems": [
    "Festim.Props.C108_superposition",
    "Festim.Props.C108_heat",
    "Festim.Props.C108_reciprocity",
    "Festim.Props.C108_run",
    "Festim.Props.C108_comparison",
    "Festim.Props.C108_comparison_run",
    "Festim.Props.C108_recombination"
   ],
   "note": ""
  },
  {
   "property": "C109",
   "status": "proved",
   "theorems": [
    "Festim.Props.C109_residual",
    "Festim.Props.C109_equations",
    "Festim.Props.C109_heat",
    "Festim.Props.C109_totals",
    "Festim.Props.C109_flux",
    "Festim.Props.C109_average"
   ],
   "note": ""
  },
  {
   "property": "C110",
   "status": "proved",
   "theorems": [
    "Festim.Props.C110_write",
    "Festim.Props.C110_updated",
    "Festim.Props.C110_decay"
   ],
   "note": ""
  },
  {
   "property": "C111",
   "status": "proved",
   "theorems": [
    "Festim.Props.C111_empty",
    "Festim.Props.C111_free",
    "Festim.Props.C111_sink",
    "Festim.Props.C111_outside",
    "Festim.Props.C111_transient",
    "Festim.Props.C111_loss",
    "Festim.Props.C111_reported"
   ],
   "note": ""
  },
  {
   "property": "C112",
   "status": "proved",
   "theorems": [
    "Festim.Props.C112_desorbed",
    "Festim.Props.C112_step",
    "Festim.Props.C112_run",
    "Festim.Props.C112_bound"
   ],
   "note": ""
  },
  {
   "property": "C113",
   "status": "proved",
   "theorems": [
    "Festim.Props.C113_steady",
    "Festim.Props.C113_curvature",
    "Festim.Props.C113_defect",
    "Festim.Props.C113_step"
   ],
   "note": ""
  },
  {
   "property": "C114",
   "status": "proved",
   "theorems": [
    "Festim.Props.C114_cumulated",
    "Festim.Props.C114_asymptote",
    "Festim.Props.C114_lag"
   ],
   "note": ""
  },
  {
   "property": "C115",
   "status": "proved",
   "theorems": [
    "Festim.Props.C115_trap",
    "Festim.Props.C115_extrinsic",
    "Festim.Props.C115_neutron",
    "Festim.Props.C115_first_order"
   ],
   "note": ""
  },
  {
   "property": "C116",
   "status": "proved",
   "theorems": [
    "Festim.Keywords.C116_unknown_accepted",
    "Festim.Keywords.C116_trap_rejects",
    "Festim.Keywords.C116_required",
    "Festim.Keywords.C116_values",
    "Festim.Keywords.C116_newton_solver"
   ],
   "note": ""
  },
  {
   "property": "C117",
   "status": "proved",
   "theorems": [
    "Festim.Props.C117_balance",
    "Festim.Props.C117_no_gap",
    "Festim.Props.C117_gap_bound",
    "Festim.Props.C117_unequal"
   ],
   "note": ""
  },
  {
   "property": "C118",
   "status": "proved",
   "theorems": [
    "Festim.Props.C118_concentration",
    "Festim.Props.C118_coverage",
    "Festim.Props.C118_alternatives",
    "Festim.Props.C118_run",
    "Festim.Props.C118_reported",
    "Festim.Props.C118_equilibrium",
    "Festim.Props.C118_sieverts",
    "Festim.Props.C118_two_solutions"
   ],
   "note": ""
  },
  {
   "property": "C119",
   "status": "proved",
   "theorems": [
    "Festim.Props.C119_unique",
    "Festim.Props.C119_comparison",
    "Festim.Props.C119_exists"
   ],
   "note": ""
  },
  {
   "property": "C120",
   "status": "proved",
   "theorems": [
    "Festim.Props.C120_unique",
    "Festim.Props.C120_exists",
    "Festim.Props.C120_run",
    "Festim.Props.C120_comparison",
    "Festim.Props.C120_two_solutions"
   ],
   "note": ""
  },
  {
   "property": "C121",
   "status": "proved",
   "theorems": [
    "Festim.Props.C121_balance",
    "Festim.Props.C121_complete"
   ],
   "note": ""
  },
  {
   "property": "C122",
   "status": "proved",
   "theorems": [
    "Festim.Props.C122_profile",
    "Festim.Props.C122_unique",
    "Festim.Props.C122_limits",
    "Festim.Props.C122_exists",
    "Festim.Props.C122_reported"
   ],
   "note": ""
  },
  {
   "property": "C123",
   "status": "proved",
   "theorems": [
    "Festim.Props.C123_unique",
    "Festim.Props.C123_exists",
    "Festim.Props.C123_run",
    "Festim.Props.C123_stefan",
    "Festim.Props.C123_two_solutions"
   ],
   "note": ""
  },
  {
   "property": "C124",
   "status": "proved",
   "theorems": [
    "Festim.Props.C124_balance",
    "Festim.Props.C124_bound",
    "Festim.Props.C124_complete"
   ],
   "note": ""
  },
  {
   "property": "C125",
   "status": "proved",
   "theorems": [
    "Festim.Props.C125_contract",
    "Festim.Props.C125_unique",
    "Festim.Props.C125_balance",
    "Festim.Props.C125_complete",
    "Festim.Props.C125_total"
   ],
   "note": ""
  },
  {
   "property": "C126",
   "status": "proved",
   "theorems": [
    "Festim.Props.C126_step",
    "Festim.Props.C126_run",
    "Festim.Props.C126_unique",
    "Festim.Props.C126_second"
   ],
   "note": ""
  },
  {
   "property": "C127",
   "status": "proved",
   "theorems": [
    "Festim.Props.C127_step",
    "Festim.Props.C127_run",
    "Festim.Props.C127_accuracy"
   ],
   "note": ""
  }
 ]
}