{
 "claims": [
  {
   "property": "C01",
   "status": "proved",
   "theorems": [
    "OpenControls.C01_accepts_iff",
    "OpenControls.C01_only_arguments_error",
    "OpenControls.C01_rejects",
    "OpenControls.C01_accepts_iff_real"
   ],
   "note": ""
  },
  {
   "property": "C02",
   "status": "proved",
   "theorems": [
    "OpenControls.C02_stores_arguments"
   ],
   "note": ""
  },
  {
   "property": "C03",
   "status": "proved",
   "theorems": [
    "OpenControls.C03_times_any",
    "OpenControls.C03_times"
   ],
   "note": ""
  },
  {
   "property": "C04",
   "status": "proved",
   "theorems": [
    "OpenControls.C04_extrema"
   ],
   "note": ""
  },
  {
   "property": "C05",
   "status": "proved",
   "theorems": [
    "OpenControls.C05_angles"
   ],
   "note": ""
  },
  {
   "property": "C06",
   "status": "partial",
   "theorems": [
    "OpenControls.C06_directions_exact",
    "OpenControls.C06_directions_partial",
    "OpenControls.C06_not_unit_counterexample"
   ],
   "note": "The full statement is false of the code for segments with 0 < |v| <= min(1e-20 max|v|, 1e-8): refuted by C06_not_unit_counterexample; C06_directions_exact is the exact behaviour for every segment."
  },
  {
   "property": "C07",
   "status": "partial",
   "theorems": [
    "OpenControls.C07_evolution_exact",
    "OpenControls.C07_angles_directions_evolution_partial",
    "OpenControls.C07_counterexample",
    "OpenControls.C07_documented_hamiltonian",
    "OpenControls.C07_documented_ladder_literal",
    "OpenControls.C07_documented_ladder_swapped"
   ],
   "note": "Proved for every segment above the tolerance of C06 (and for idle segments); false below it (C07_counterexample); C07_evolution_exact is the exact behaviour of every segment."
  },
  {
   "property": "C08",
   "status": "proved",
   "theorems": [
    "OpenControls.C08_unsupported_coordinates",
    "OpenControls.C08_export_coordinates",
    "OpenControls.C08_export_raw"
   ],
   "note": ""
  },
  {
   "property": "C09",
   "status": "proved",
   "theorems": [
    "OpenControls.C09_dimensionless"
   ],
   "note": ""
  },
  {
   "property": "C10",
   "status": "proved",
   "theorems": [
    "OpenControls.C10_csv_cylindrical",
    "OpenControls.C10_csv_cartesian",
    "OpenControls.C10_csv_roundtrip_cylindrical",
    "OpenControls.C10_csv_roundtrip_cartesian"
   ],
   "note": ""
  },
  {
   "property": "C11",
   "status": "partial",
   "theorems": [
    "OpenControls.C11_csv_succeeds_iff",
    "OpenControls.C11_unnamed_key_error",
    "OpenControls.C11_not_every_control_exportable"
   ],
   "note": "The claim is false of the code: C11_not_every_control_exportable; exact success condition C11_csv_succeeds_iff."
  },
  {
   "property": "C12",
   "status": "proved",
   "theorems": [
    "OpenControls.C12_json",
    "OpenControls.C12_json_roundtrip"
   ],
   "note": ""
  },
  {
   "property": "C13",
   "status": "proved",
   "theorems": [
    "OpenControls.C13_file_effects"
   ],
   "note": ""
  },
  {
   "property": "C14",
   "status": "partial",
   "theorems": [
    "OpenControls.C14_str_exact",
    "OpenControls.C14_str_partial",
    "OpenControls.C14_detunings_lost"
   ],
   "note": "False when the largest detuning is 0 and another one is negative: C14_detunings_lost; proved for all other controls; C14_str_exact is the exact text of every control."
  },
  {
   "property": "C15",
   "status": "proved",
   "theorems": [
    "OpenControls.C15_control_repr",
    "OpenControls.C15_sequence_repr",
    "OpenControls.C15_create_repr",
    "OpenControls.C15_create_repr_rejects",
    "OpenControls.C15_create_repr_only_arguments_error",
    "OpenControls.C15_error_message"
   ],
   "note": ""
  },
  {
   "property": "C16",
   "status": "proved",
   "theorems": [
    "OpenControls.C16_primitive"
   ],
   "note": ""
  },
  {
   "property": "C17",
   "status": "proved",
   "theorems": [
    "OpenControls.C17_bb1"
   ],
   "note": ""
  },
  {
   "property": "C18",
   "status": "proved",
   "theorems": [
    "OpenControls.C18_sk1"
   ],
   "note": ""
  },
  {
   "property": "C19",
   "status": "proved",
   "theorems": [
    "OpenControls.C19_corpse"
   ],
   "note": ""
  },
  {
   "property": "C20",
   "status": "proved",
   "theorems": [
    "OpenControls.C20_scrofulous",
    "OpenControls.C20_scrofulous_sinc",
    "OpenControls.C20_scrofulous_exact_iff"
   ],
   "note": ""
  },
  {
   "property": "C21",
   "status": "proved",
   "theorems": [
    "OpenControls.C21_corpse_in_bb1"
   ],
   "note": ""
  },
  {
   "property": "C22",
   "status": "proved",
   "theorems": [
    "OpenControls.C22_corpse_in_sk1"
   ],
   "note": ""
  },
  {
   "property": "C23",
   "status": "proved",
   "theorems": [
    "OpenControls.C23_corpse_in_scrofulous",
    "OpenControls.C23_exact_iff"
   ],
   "note": ""
  },
  {
   "property": "C24",
   "status": "proved",
   "theorems": [
    "OpenControls.C24_wamf1"
   ],
   "note": ""
  },
  {
   "property": "C25",
   "status": "proved",
   "theorems": [
    "OpenControls.C25_rate_limits"
   ],
   "note": ""
  },
  {
   "property": "C26",
   "status": "proved",
   "theorems": [
    "OpenControls.C26_sk1_amplitude"
   ],
   "note": ""
  },
  {
   "property": "C27",
   "status": "proved",
   "theorems": [
    "OpenControls.C27_bb1_amplitude"
   ],
   "note": ""
  },
  {
   "property": "C28",
   "status": "proved",
   "theorems": [
    "OpenControls.C28_corpse_detuning",
    "OpenControls.C28_corpse_in_detuning"
   ],
   "note": ""
  },
  {
   "property": "C29",
   "status": "partial",
   "theorems": [
    "OpenControls.C29_accepts",
    "OpenControls.C29_segmentation_partial",
    "OpenControls.C29_too_short"
   ],
   "note": "All proved but 'every segment is at least minimum_segment_duration long', which is false of the code (C29_too_short): segments are never longer and shorter unless the ratio is an integer."
  },
  {
   "property": "C30",
   "status": "proved",
   "theorems": [
    "OpenControls.C30_modulated_rates",
    "OpenControls.C30_unmodulated_rates"
   ],
   "note": ""
  },
  {
   "property": "C31",
   "status": "proved",
   "theorems": [
    "OpenControls.C31_net_identity"
   ],
   "note": ""
  },
  {
   "property": "C32",
   "status": "proved",
   "theorems": [
    "OpenControls.C32_azimuthal_angle"
   ],
   "note": ""
  },
  {
   "property": "C33",
   "status": "proved",
   "theorems": [
    "OpenControls.C33_accepts_iff",
    "OpenControls.C33_only_arguments_error",
    "OpenControls.C33_rejects",
    "OpenControls.C33_stores_arguments",
    "OpenControls.C33_accepts_iff_real"
   ],
   "note": ""
  },
  {
   "property": "C34",
   "status": "proved",
   "theorems": [
    "OpenControls.C34_identity_or_z",
    "OpenControls.C34_accepts"
   ],
   "note": ""
  },
  {
   "property": "C35",
   "status": "proved",
   "theorems": [
    "OpenControls.C35_ramsey",
    "OpenControls.C35_ramsey_identity",
    "OpenControls.C35_spin_echo"
   ],
   "note": ""
  },
  {
   "property": "C36",
   "status": "proved",
   "theorems": [
    "OpenControls.C36_carr_purcell",
    "OpenControls.C36_cpmg",
    "OpenControls.C36_times"
   ],
   "note": ""
  },
  {
   "property": "C37",
   "status": "proved",
   "theorems": [
    "OpenControls.C37_uhrig",
    "OpenControls.C37_times"
   ],
   "note": ""
  },
  {
   "property": "C38",
   "status": "proved",
   "theorems": [
    "OpenControls.C38_periodic",
    "OpenControls.C38_times"
   ],
   "note": ""
  },
  {
   "property": "C39",
   "status": "proved",
   "theorems": [
    "OpenControls.C39_walsh",
    "OpenControls.C39_zeros",
    "OpenControls.C39_unique"
   ],
   "note": ""
  },
  {
   "property": "C40",
   "status": "proved",
   "theorems": [
    "OpenControls.C40_quadratic",
    "OpenControls.C40_times"
   ],
   "note": ""
  },
  {
   "property": "C41",
   "status": "proved",
   "theorems": [
    "OpenControls.C41_x_concatenated",
    "OpenControls.C41_times",
    "OpenControls.C41_end"
   ],
   "note": "Stated with the pulse at the end left out, as the code does for odd orders (C41_end)."
  },
  {
   "property": "C42",
   "status": "partial",
   "theorems": [
    "OpenControls.C42_exact",
    "OpenControls.C42_odd_end",
    "OpenControls.C42_even_end",
    "OpenControls.C42_low_orders_partial",
    "OpenControls.C42_returns",
    "OpenControls.C42_recursion_last",
    "OpenControls.C42_false"
   ],
   "note": "True for orders 1 and 2 (C42_low_orders_partial); false of the code for every order of at least 3 (C42_false); C42_exact states exactly what the code builds at every order; C42_odd_end and C42_even_end give the last pulse (a twentieth of the duration is left without pulses at high orders)."
  },
  {
   "property": "C43",
   "status": "proved",
   "theorems": [
    "OpenControls.C43_well_formed",
    "OpenControls.C43_increasing",
    "OpenControls.C43_non_decreasing",
    "OpenControls.C43_scaling"
   ],
   "note": ""
  },
  {
   "property": "C44",
   "status": "proved",
   "theorems": [
    "OpenControls.C44_refocused",
    "OpenControls.C44_periodic_even",
    "OpenControls.C44_ramsey",
    "OpenControls.C44_xy_odd",
    "OpenControls.C44_iff"
   ],
   "note": ""
  },
  {
   "property": "C45",
   "status": "proved",
   "theorems": [
    "OpenControls.C45_uhrig_moments",
    "OpenControls.C45_quadratic_moments"
   ],
   "note": ""
  },
  {
   "property": "C46",
   "status": "proved",
   "theorems": [
    "OpenControls.C46_only_arguments_error",
    "OpenControls.C46_convertible"
   ],
   "note": ""
  },
  {
   "property": "C47",
   "status": "partial",
   "theorems": [
    "OpenControls.C47_duration_bounds",
    "OpenControls.C47_duration_exact_partial",
    "OpenControls.C47_no_overlap",
    "OpenControls.C47_false"
   ],
   "note": "Exactly true without overlaps (C47_duration_exact_partial, an iff for sequences longer than 1e-8); false in general (C47_false); bounds for all in C47_duration_bounds."
  },
  {
   "property": "C48",
   "status": "proved",
   "theorems": [
    "OpenControls.C48_rates"
   ],
   "note": ""
  },
  {
   "property": "C49",
   "status": "partial",
   "theorems": [
    "OpenControls.C49_evolution_exact",
    "OpenControls.C49_evolution_partial",
    "OpenControls.C49_false"
   ],
   "note": "C49_evolution_partial for pure pulses outside numpy's dead zone in sequences longer than 1e-8; false otherwise (C49_false, C52_false, C53_false); C49_evolution_exact is the exact behaviour of every conversion longer than 1e-8."
  },
  {
   "property": "C50",
   "status": "proved",
   "theorems": [
    "OpenControls.C50_minimum_duration"
   ],
   "note": ""
  },
  {
   "property": "C51",
   "status": "proved",
   "theorems": [
    "OpenControls.C51_waveform",
    "OpenControls.C51_unique"
   ],
   "note": ""
  },
  {
   "property": "C52",
   "status": "partial",
   "theorems": [
    "OpenControls.C52_rejected_partial",
    "OpenControls.C52_false"
   ],
   "note": "False for negative detuning rotations (C52_false); proved for positive ones."
  },
  {
   "property": "C53",
   "status": "partial",
   "theorems": [
    "OpenControls.C53_short_is_free",
    "OpenControls.C53_scaling_partial",
    "OpenControls.C53_false"
   ],
   "note": "False for sequences of at most 1e-8 (C53_false, C53_short_is_free); C53_scaling_partial proves it above."
  },
  {
   "property": "C54",
   "status": "proved",
   "theorems": [
    "OpenControls.C54_sequence_export",
    "OpenControls.C54_sequence_export_readback"
   ],
   "note": ""
  },
  {
   "property": "C55",
   "status": "proved",
   "theorems": [
    "OpenControls.C55_export_to_file",
    "OpenControls.C55_unnamed_csv"
   ],
   "note": ""
  },
  {
   "property": "C56",
   "status": "proved",
   "theorems": [
    "OpenControls.C56_sequence_str"
   ],
   "note": ""
  },
  {
   "property": "C57",
   "status": "proved",
   "theorems": [
    "OpenControls.C57_nested_amplitude",
    "OpenControls.C57_nested_insensitive",
    "OpenControls.C57_primitive_is_sensitive"
   ],
   "note": ""
  },
  {
   "property": "C58",
   "status": "proved",
   "theorems": [
    "OpenControls.C58_scrofulous_amplitude"
   ],
   "note": ""
  },
  {
   "property": "C59",
   "status": "proved",
   "theorems": [
    "OpenControls.C59_corpse_in_scrofulous"
   ],
   "note": ""
  },
  {
   "property": "C60",
   "status": "proved",
   "theorems": [
    "OpenControls.C60_enough_room",
    "OpenControls.C60_fast_hardware"
   ],
   "note": ""
  },
  {
   "property": "C61",
   "status": "proved",
   "theorems": [
    "OpenControls.C61_convertible_somewhere",
    "OpenControls.C61_xy_never"
   ],
   "note": ""
  },
  {
   "property": "C62",
   "status": "proved",
   "theorems": [
    "OpenControls.C62_one_pulse",
    "OpenControls.C62_walsh_periodic",
    "OpenControls.C62_walsh_carr_purcell",
    "OpenControls.C62_walsh_x_concatenated",
    "OpenControls.C62_uhrig_cpmg"
   ],
   "note": ""
  },
  {
   "property": "C63",
   "status": "proved",
   "theorems": [
    "OpenControls.C63_ramsey",
    "OpenControls.C63_spin_echo",
    "OpenControls.C63_carr_purcell",
    "OpenControls.C63_cpmg",
    "OpenControls.C63_uhrig",
    "OpenControls.C63_periodic",
    "OpenControls.C63_walsh",
    "OpenControls.C63_quadratic",
    "OpenControls.C63_x_concatenated",
    "OpenControls.C63_xy_concatenated"
   ],
   "note": ""
  },
  {
   "property": "C64",
   "status": "proved",
   "theorems": [
    "OpenControls.C64_control_accepts",
    "OpenControls.C64_sequence_accepts",
    "OpenControls.C64_nan_accepted",
    "OpenControls.C64_composite",
    "OpenControls.C64_sequence_nan",
    "OpenControls.C64_infinite_count",
    "OpenControls.C64_gaussian"
   ],
   "note": ""
  },
  {
   "property": "C65",
   "status": "proved",
   "theorems": [
    "OpenControls.C65_composite",
    "OpenControls.C65_sequence",
    "OpenControls.C65_conversion",
    "OpenControls.C65_gaussian",
    "OpenControls.C65_accessors",
    "OpenControls.C65_text"
   ],
   "note": ""
  },
  {
   "property": "C66",
   "status": "proved",
   "theorems": [
    "OpenControls.C66_finite",
    "OpenControls.C66_without_drive"
   ],
   "note": ""
  },
  {
   "property": "C67",
   "status": "proved",
   "theorems": [
    "OpenControls.C67_infinite_rates",
    "OpenControls.C67_pulses_lost",
    "OpenControls.C67_infinite_minimum",
    "OpenControls.C67_accepted"
   ],
   "note": ""
  },
  {
   "property": "C68",
   "status": "proved",
   "theorems": [
    "OpenControls.C68_wamf1_detuning",
    "OpenControls.C68_wamf1_first_order",
    "OpenControls.C68_primitive_detuning"
   ],
   "note": ""
  },
  {
   "property": "C69",
   "status": "proved",
   "theorems": [
    "OpenControls.C69_derive_segments",
    "OpenControls.C69_default_amplitude"
   ],
   "note": ""
  },
  {
   "property": "C70",
   "status": "proved",
   "theorems": [
    "OpenControls.C70_conversion_pure",
    "OpenControls.C70_conversion_isolated"
   ],
   "note": ""
  },
  {
   "property": "C71",
   "status": "proved",
   "theorems": [
    "OpenControls.C71_constructors_pure",
    "OpenControls.C71_control_aliases",
    "OpenControls.C71_sequence_aliases",
    "OpenControls.C71_lists_isolated",
    "OpenControls.C71_validity_can_be_lost"
   ],
   "note": ""
  },
  {
   "property": "C72",
   "status": "proved",
   "theorems": [
    "OpenControls.C72_cancellation_order",
    "OpenControls.C72_xy_even"
   ],
   "note": ""
  },
  {
   "property": "C73",
   "status": "proved",
   "theorems": [
    "OpenControls.C73_csv_cylindrical",
    "OpenControls.C73_csv_cartesian"
   ],
   "note": ""
  },
  {
   "property": "C74",
   "status": "proved",
   "theorems": [
    "OpenControls.C74_json_text"
   ],
   "note": ""
  },
  {
   "property": "C75",
   "status": "proved",
   "theorems": [
    "OpenControls.C75_json_valid_iff"
   ],
   "note": ""
  },
  {
   "property": "C76",
   "status": "proved",
   "theorems": [
    "OpenControls.C76_primitive",
    "OpenControls.C76_bb1",
    "OpenControls.C76_sk1",
    "OpenControls.C76_corpse",
    "OpenControls.C76_corpse_in_bb1",
    "OpenControls.C76_corpse_in_sk1",
    "OpenControls.C76_scrofulous",
    "OpenControls.C76_corpse_in_scrofulous",
    "OpenControls.C76_wamf1"
   ],
   "note": ""
  },
  {
   "property": "C77",
   "status": "proved",
   "theorems": [
    "OpenControls.C77_converts",
    "OpenControls.C77_evolution",
    "OpenControls.C77_duration",
    "OpenControls.C77_rejects",
    "OpenControls.C77_lost_pulse"
   ],
   "note": ""
  },
  {
   "property": "C78",
   "status": "proved",
   "theorems": [
    "OpenControls.C78_agrees",
    "OpenControls.C78_pipeline"
   ],
   "note": ""
  },
  {
   "property": "C79",
   "status": "proved",
   "theorems": [
    "OpenControls.C79_flat",
    "OpenControls.C79_scalar_and_matrix",
    "OpenControls.C79_column_angles",
    "OpenControls.C79_control_accepts",
    "OpenControls.C79_control_errors",
    "OpenControls.C79_accepted_unusable",
    "OpenControls.C79_sequence_accepts"
   ],
   "note": ""
  },
  {
   "property": "C80",
   "status": "proved",
   "theorems": [
    "OpenControls.C80_predefined_pure",
    "OpenControls.C80_predefined_isolated",
    "OpenControls.C80_two_sequences",
    "OpenControls.C80_no_index_error"
   ],
   "note": ""
  },
  {
   "property": "C81",
   "status": "proved",
   "theorems": [
    "OpenControls.C81_dephasing_solves",
    "OpenControls.C81_dephasing_phase",
    "OpenControls.C81_return_probability",
    "OpenControls.C81_cancelled"
   ],
   "note": ""
  },
  {
   "property": "C82",
   "status": "proved",
   "theorems": [
    "OpenControls.C82_universal_iff",
    "OpenControls.C82_quadratic_moments"
   ],
   "note": ""
  },
  {
   "property": "C83",
   "status": "proved",
   "theorems": [
    "OpenControls.C83_amplitude_iff",
    "OpenControls.C83_amplitude_twice_iff",
    "OpenControls.C83_detuning_iff"
   ],
   "note": ""
  },
  {
   "property": "C84",
   "status": "proved",
   "theorems": [
    "OpenControls.C84_immune",
    "OpenControls.C84_accumulates",
    "OpenControls.C84_carr_purcell"
   ],
   "note": ""
  },
  {
   "property": "C85",
   "status": "proved",
   "theorems": [
    "OpenControls.C85_accepts",
    "OpenControls.C85_segments",
    "OpenControls.C85_unmodulated",
    "OpenControls.C85_modulated",
    "OpenControls.C85_lost_segment"
   ],
   "note": ""
  },
  {
   "property": "C86",
   "status": "proved",
   "theorems": [
    "OpenControls.C86_times",
    "OpenControls.C86_extrema",
    "OpenControls.C86_angles",
    "OpenControls.C86_directions",
    "OpenControls.C86_angles_directions_evolution",
    "OpenControls.C86_dimensionless",
    "OpenControls.C86_csv_cylindrical",
    "OpenControls.C86_csv_cartesian",
    "OpenControls.C86_json_cylindrical",
    "OpenControls.C86_json_cartesian",
    "OpenControls.C86_time_lost"
   ],
   "note": ""
  },
  {
   "property": "C87",
   "status": "proved",
   "theorems": [
    "OpenControls.C87_error",
    "OpenControls.C87_insensitive_iff",
    "OpenControls.C87_families"
   ],
   "note": ""
  },
  {
   "property": "C88",
   "status": "proved",
   "theorems": [
    "OpenControls.C88_noise",
    "OpenControls.C88_symmetric_noise",
    "OpenControls.C88_amplitude_error",
    "OpenControls.C88_insensitive_iff"
   ],
   "note": ""
  },
  {
   "property": "C89",
   "status": "proved",
   "theorems": [
    "OpenControls.C89_controls_pure",
    "OpenControls.C89_controls_isolated",
    "OpenControls.C89_two_controls"
   ],
   "note": ""
  },
  {
   "property": "C90",
   "status": "proved",
   "theorems": [
    "OpenControls.C90_error",
    "OpenControls.C90_insensitive_iff",
    "OpenControls.C90_families"
   ],
   "note": ""
  },
  {
   "property": "C91",
   "status": "proved",
   "theorems": [
    "OpenControls.C91_error_bound",
    "OpenControls.C91_single_kind",
    "OpenControls.C91_short"
   ],
   "note": ""
  },
  {
   "property": "C92",
   "status": "proved",
   "theorems": [
    "OpenControls.C92_obtained",
    "OpenControls.C92_reads_pure",
    "OpenControls.C92_reads_value",
    "OpenControls.C92_history",
    "OpenControls.C92_results_isolated",
    "OpenControls.C92_sequence_reads",
    "OpenControls.C92_reassigned"
   ],
   "note": ""
  },
  {
   "property": "C93",
   "status": "proved",
   "theorems": [
    "OpenControls.C93_faster",
    "OpenControls.C93_faster_rounded",
    "OpenControls.C93_good_enough",
    "OpenControls.C93_rabi_threshold",
    "OpenControls.C93_detuning_threshold",
    "OpenControls.C93_minimum_threshold"
   ],
   "note": ""
  },
  {
   "property": "C94",
   "status": "proved",
   "theorems": [
    "OpenControls.C94_scaled",
    "OpenControls.C94_scaled_pure",
    "OpenControls.C94_accumulates",
    "OpenControls.C94_bounded",
    "OpenControls.C94_carr_purcell"
   ],
   "note": ""
  },
  {
   "property": "C95",
   "status": "proved",
   "theorems": [
    "OpenControls.C95_backwards",
    "OpenControls.C95_turned",
    "OpenControls.C95_palindromes",
    "OpenControls.C95_xy_not_palindrome",
    "OpenControls.C95_undo_control",
    "OpenControls.C95_undo_sequence"
   ],
   "note": ""
  },
  {
   "property": "C96",
   "status": "proved",
   "theorems": [
    "OpenControls.C96_pure",
    "OpenControls.C96_mismatched",
    "OpenControls.C96_no_offsets",
    "OpenControls.C96_validates",
    "OpenControls.C96_zero_duration"
   ],
   "note": ""
  },
  {
   "property": "C97",
   "status": "proved",
   "theorems": [
    "OpenControls.C97_flat",
    "OpenControls.C97_returns",
    "OpenControls.C97_errors",
    "OpenControls.C97_no_offsets",
    "OpenControls.C97_unordered"
   ],
   "note": ""
  },
  {
   "property": "C98",
   "status": "proved",
   "theorems": [
    "OpenControls.C98_phase",
    "OpenControls.C98_evolution",
    "OpenControls.C98_return_probability"
   ],
   "note": ""
  },
  {
   "property": "C99",
   "status": "proved",
   "theorems": [
    "OpenControls.C99_csv",
    "OpenControls.C99_json",
    "OpenControls.C99_csv_cartesian",
    "OpenControls.C99_json_cartesian",
    "OpenControls.C99_exact",
    "OpenControls.C99_exact_cartesian",
    "OpenControls.C99_rounded",
    "OpenControls.C99_rounded_cartesian"
   ],
   "note": ""
  },
  {
   "property": "C100",
   "status": "proved",
   "theorems": [
    "OpenControls.C100_control",
    "OpenControls.C100_sequence",
    "OpenControls.C100_any_beginning",
    "OpenControls.C100_json_noticed",
    "OpenControls.C100_sequence_json_noticed",
    "OpenControls.C100_csv_unnoticed"
   ],
   "note": ""
  },
  {
   "property": "C101",
   "status": "proved",
   "theorems": [
    "OpenControls.C101_scalar",
    "OpenControls.C101_json",
    "OpenControls.C101_csv",
    "OpenControls.C101_csv_unnamed",
    "OpenControls.C101_flat",
    "OpenControls.C101_accepted",
    "OpenControls.C101_destroys"
   ],
   "note": ""
  },
  {
   "property": "C102",
   "status": "proved",
   "theorems": [
    "OpenControls.C102_amplitude",
    "OpenControls.C102_detuning",
    "OpenControls.C102_units",
    "OpenControls.C102_schemes",
    "OpenControls.C102_primitive",
    "OpenControls.C102_bb1",
    "OpenControls.C102_sk1",
    "OpenControls.C102_corpse",
    "OpenControls.C102_bb1_better"
   ],
   "note": ""
  },
  {
   "property": "C103",
   "status": "proved",
   "theorems": [
    "OpenControls.C103_cylindrical",
    "OpenControls.C103_cartesian"
   ],
   "note": ""
  },
  {
   "property": "C104",
   "status": "proved",
   "theorems": [
    "OpenControls.C104_amplitudes",
    "OpenControls.C104_angles",
    "OpenControls.C104_directions",
    "OpenControls.C104_flat",
    "OpenControls.C104_column_detunings",
    "OpenControls.C104_export_entries",
    "OpenControls.C104_linelike_export",
    "OpenControls.C104_row_angles",
    "OpenControls.C104_accepted",
    "OpenControls.C104_row_detunings"
   ],
   "note": ""
  },
  {
   "property": "C105",
   "status": "proved",
   "theorems": [
    "OpenControls.C105_segments",
    "OpenControls.C105_evolution",
    "OpenControls.C105_schemes",
    "OpenControls.C105_amplitude",
    "OpenControls.C105_detuning",
    "OpenControls.C105_bb1",
    "OpenControls.C105_sk1",
    "OpenControls.C105_bb1_all",
    "OpenControls.C105_sk1_all",
    "OpenControls.C105_corpse"
   ],
   "note": ""
  },
  {
   "property": "C106",
   "status": "proved",
   "theorems": [
    "OpenControls.C106_control",
    "OpenControls.C106_unique",
    "OpenControls.C106_lists",
    "OpenControls.C106_bad_durations",
    "OpenControls.C106_sequence",
    "OpenControls.C106_sequence_lists",
    "OpenControls.C106_string_rotation",
    "OpenControls.C106_none",
    "OpenControls.C106_complex_offset"
   ],
   "note": ""
  },
  {
   "property": "C107",
   "status": "proved",
   "theorems": [
    "OpenControls.C107_bb1",
    "OpenControls.C107_sk1",
    "OpenControls.C107_corpse_amplitude",
    "OpenControls.C107_amplitude_order",
    "OpenControls.C107_immune_iff",
    "OpenControls.C107_primitive_detuning",
    "OpenControls.C107_corpse_detuning",
    "OpenControls.C107_corpse_best_angle"
   ],
   "note": ""
  },
  {
   "property": "C108",
   "status": "proved",
   "theorems": [
    "OpenControls.C108_numbers",
    "OpenControls.C108_control",
    "OpenControls.C108_control_exception",
    "OpenControls.C108_rate",
    "OpenControls.C108_sequence",
    "OpenControls.C108_sequence_numbers",
    "OpenControls.C108_sequence_exception",
    "OpenControls.C108_gaussian",
    "OpenControls.C108_conversion",
    "OpenControls.C108_plot",
    "OpenControls.C108_file",
    "OpenControls.C108_sequence_file"
   ],
   "note": ""
  },
  {
   "property": "C109",
   "status": "proved",
   "theorems": [
    "OpenControls.C109_in_range",
    "OpenControls.C109_in_range_bb1",
    "OpenControls.C109_rates",
    "OpenControls.C109_rates_rejected",
    "OpenControls.C109_primitive",
    "OpenControls.C109_overflow",
    "OpenControls.C109_overflow_wamf1",
    "OpenControls.C109_angles"
   ],
   "note": ""
  },
  {
   "property": "C110",
   "status": "proved",
   "theorems": [
    "OpenControls.C110_in_range",
    "OpenControls.C110_conversion",
    "OpenControls.C110_pipeline",
    "OpenControls.C110_x_concatenated_underflow",
    "OpenControls.C110_spin_echo_underflow"
   ],
   "note": ""
  },
  {
   "property": "C111",
   "status": "proved",
   "theorems": [
    "OpenControls.C111_first_order",
    "OpenControls.C111_universal",
    "OpenControls.C111_return_probability"
   ],
   "note": ""
  },
  {
   "property": "C112",
   "status": "proved",
   "theorems": [
    "OpenControls.C112_dephasing_distance",
    "OpenControls.C112_static_distance",
    "OpenControls.C112_dephasing",
    "OpenControls.C112_dephasing_return_probability",
    "OpenControls.C112_universal",
    "OpenControls.C112_universal_return_probability"
   ],
   "note": ""
  },
  {
   "property": "C113",
   "status": "proved",
   "theorems": [
    "OpenControls.C113_exists",
    "OpenControls.C113_noiseless",
    "OpenControls.C113_dephasing_free",
    "OpenControls.C113_static_free",
    "OpenControls.C113_distance",
    "OpenControls.C113_dephasing",
    "OpenControls.C113_universal",
    "OpenControls.C113_fast_hardware"
   ],
   "note": ""
  },
  {
   "property": "C114",
   "status": "partial",
   "theorems": [
    "OpenControls.C114_same_outcome",
    "OpenControls.C114_message",
    "OpenControls.C114_constructors",
    "OpenControls.C114_exports",
    "OpenControls.C114_controls_partial",
    "OpenControls.C114_negative_rotation",
    "OpenControls.C114_gaussian_partial",
    "OpenControls.C114_gaussian_duration",
    "OpenControls.C114_sequences",
    "OpenControls.C114_conversion",
    "OpenControls.C114_conversion_reason",
    "OpenControls.C114_sequence_file_partial",
    "OpenControls.C114_sequence_file"
   ],
   "note": "False of the code in three cases, each refuted: a negative rotation with the controls that have no table of angles (C114_negative_rotation), a Rabi rate too small for the duration of a modulated Gaussian (C114_gaussian_duration), export_to_file of a sequence that cannot be converted (C114_sequence_file). Proved for all other calls."
  },
  {
   "property": "C115",
   "status": "proved",
   "theorems": [
    "OpenControls.C115_distance",
    "OpenControls.C115_pipeline",
    "OpenControls.C115_dephasing",
    "OpenControls.C115_universal",
    "OpenControls.C115_exists"
   ],
   "note": ""
  },
  {
   "property": "C116",
   "status": "proved",
   "theorems": [
    "OpenControls.C116_exists",
    "OpenControls.C116_constant",
    "OpenControls.C116_compare",
    "OpenControls.C116_average",
    "OpenControls.C116_schemes",
    "OpenControls.C116_bb1",
    "OpenControls.C116_primitive"
   ],
   "note": ""
  },
  {
   "property": "C117",
   "status": "proved",
   "theorems": [
    "OpenControls.C117_bits",
    "OpenControls.C117_double",
    "OpenControls.C117_exists",
    "OpenControls.C117_reads_back",
    "OpenControls.C117_injective",
    "OpenControls.C117_shortest",
    "OpenControls.C117_nearest",
    "OpenControls.C117_notation",
    "OpenControls.C117_digits",
    "OpenControls.C117_seventeen",
    "OpenControls.C117_reload",
    "OpenControls.C117_reload_cartesian",
    "OpenControls.C117_limited",
    "OpenControls.C117_json_valid_iff",
    "OpenControls.C117_reload_limited"
   ],
   "note": ""
  },
  {
   "property": "C118",
   "status": "proved",
   "theorems": [
    "OpenControls.C118_control_text",
    "OpenControls.C118_sequence_text",
    "OpenControls.C118_control",
    "OpenControls.C118_detunings_lost",
    "OpenControls.C118_sequence"
   ],
   "note": ""
  },
  {
   "property": "C119",
   "status": "proved",
   "theorems": [
    "OpenControls.C119_control",
    "OpenControls.C119_scheme",
    "OpenControls.C119_control_limited",
    "OpenControls.C119_scheme_limited",
    "OpenControls.C119_bb1",
    "OpenControls.C119_lossy"
   ],
   "note": ""
  },
  {
   "property": "C120",
   "status": "proved",
   "theorems": [
    "OpenControls.C120_numbers",
    "OpenControls.C120_control",
    "OpenControls.C120_exceptions",
    "OpenControls.C120_amplitudes"
   ],
   "note": ""
  },
  {
   "property": "C121",
   "status": "proved",
   "theorems": [
    "OpenControls.C121_flip",
    "OpenControls.C121_area",
    "OpenControls.C121_duration",
    "OpenControls.C121_primitive",
    "OpenControls.C121_durations",
    "OpenControls.C121_slower"
   ],
   "note": ""
  },
  {
   "property": "C122",
   "status": "proved",
   "theorems": [
    "OpenControls.C122_bound",
    "OpenControls.C122_unique",
    "OpenControls.C122_determined",
    "OpenControls.C122_uhrig",
    "OpenControls.C122_predefined"
   ],
   "note": ""
  },
  {
   "property": "C123",
   "status": "proved",
   "theorems": [
    "OpenControls.C123_phase",
    "OpenControls.C123_suppression",
    "OpenControls.C123_order",
    "OpenControls.C123_predefined",
    "OpenControls.C123_any",
    "OpenControls.C123_ramsey",
    "OpenControls.C123_spin_echo",
    "OpenControls.C123_carr_purcell",
    "OpenControls.C123_resonance",
    "OpenControls.C123_periodic",
    "OpenControls.C123_walsh",
    "OpenControls.C123_x_concatenated"
   ],
   "note": ""
  },
  {
   "property": "C124",
   "status": "proved",
   "theorems": [
    "OpenControls.C124_room",
    "OpenControls.C124_ramsey",
    "OpenControls.C124_spin_echo",
    "OpenControls.C124_carr_purcell",
    "OpenControls.C124_cpmg",
    "OpenControls.C124_uhrig",
    "OpenControls.C124_periodic",
    "OpenControls.C124_walsh",
    "OpenControls.C124_x_concatenated",
    "OpenControls.C124_cpmg_rate",
    "OpenControls.C124_uhrig_rate",
    "OpenControls.C124_quadratic",
    "OpenControls.C124_xy_concatenated"
   ],
   "note": ""
  },
  {
   "property": "C125",
   "status": "proved",
   "theorems": [
    "OpenControls.C125_pulses",
    "OpenControls.C125_gray",
    "OpenControls.C125_segments",
    "OpenControls.C125_family_segments",
    "OpenControls.C125_xy_segments"
   ],
   "note": ""
  },
  {
   "property": "C126",
   "status": "proved",
   "theorems": [
    "OpenControls.C126_even",
    "OpenControls.C126_odd",
    "OpenControls.C126_returns",
    "OpenControls.C126_first",
    "OpenControls.C126_converted",
    "OpenControls.C126_converted_first"
   ],
   "note": ""
  },
  {
   "property": "C127",
   "status": "proved",
   "theorems": [
    "OpenControls.C127_even",
    "OpenControls.C127_odd",
    "OpenControls.C127_floor"
   ],
   "note": ""
  },
  {
   "property": "C128",
   "status": "proved",
   "theorems": [
    "OpenControls.C128_phase",
    "OpenControls.C128_return",
    "OpenControls.C128_quadratic",
    "OpenControls.C128_xy"
   ],
   "note": ""
  },
  {
   "property": "C129",
   "status": "proved",
   "theorems": [
    "OpenControls.C129_accepted",
    "OpenControls.C129_power",
    "OpenControls.C129_static",
    "OpenControls.C129_error",
    "OpenControls.C129_order",
    "OpenControls.C129_carr_purcell",
    "OpenControls.C129_response",
    "OpenControls.C129_response_closed",
    "OpenControls.C129_resonance",
    "OpenControls.C129_walsh"
   ],
   "note": ""
  },
  {
   "property": "C130",
   "status": "proved",
   "theorems": [
    "OpenControls.C130_control",
    "OpenControls.C130_export",
    "OpenControls.C130_pulses_at_joint",
    "OpenControls.C130_sequence",
    "OpenControls.C130_converted",
    "OpenControls.C130_evolution",
    "OpenControls.C130_pulse_at_joint",
    "OpenControls.C130_noise",
    "OpenControls.C130_played",
    "OpenControls.C130_control_any",
    "OpenControls.C130_duration_rounded",
    "OpenControls.C130_sequence_rounded",
    "OpenControls.C130_pulses_merge"
   ],
   "note": ""
  },
  {
   "property": "C131",
   "status": "proved",
   "theorems": [
    "OpenControls.C131_sequence",
    "OpenControls.C131_exceptions",
    "OpenControls.C131_one_axis",
    "OpenControls.C131_first_axis",
    "OpenControls.C131_accepts"
   ],
   "note": ""
  },
  {
   "property": "C132",
   "status": "proved",
   "theorems": [
    "OpenControls.C132_accepted",
    "OpenControls.C132_evolution",
    "OpenControls.C132_errors_add",
    "OpenControls.C132_insensitive",
    "OpenControls.C132_gates",
    "OpenControls.C132_amplitude",
    "OpenControls.C132_detuning",
    "OpenControls.C132_primitive",
    "OpenControls.C132_bb1_rounded"
   ],
   "note": ""
  },
  {
   "property": "C133",
   "status": "proved",
   "theorems": [
    "OpenControls.C133_accepted",
    "OpenControls.C133_undoes",
    "OpenControls.C133_detuning_remains",
    "OpenControls.C133_echo",
    "OpenControls.C133_insensitive",
    "OpenControls.C133_schemes",
    "OpenControls.C133_rounded"
   ],
   "note": ""
  },
  {
   "property": "C134",
   "status": "proved",
   "theorems": [
    "OpenControls.C134_numbers",
    "OpenControls.C134_exceptions",
    "OpenControls.C134_control",
    "OpenControls.C134_export",
    "OpenControls.C134_accepts"
   ],
   "note": ""
  },
  {
   "property": "C135",
   "status": "proved",
   "theorems": [
    "OpenControls.C135_composite",
    "OpenControls.C135_gaussian",
    "OpenControls.C135_sequence",
    "OpenControls.C135_reading",
    "OpenControls.C135_composite_exact",
    "OpenControls.C135_gaussian_exact",
    "OpenControls.C135_sequence_exact",
    "OpenControls.C135_reading_exact",
    "OpenControls.C135_evolution"
   ],
   "note": ""
  },
  {
   "property": "C136",
   "status": "proved",
   "theorems": [
    "OpenControls.C136_in_turn",
    "OpenControls.C136_exists",
    "OpenControls.C136_errors_add",
    "OpenControls.C136_bb1"
   ],
   "note": ""
  },
  {
   "property": "C137",
   "status": "proved",
   "theorems": [
    "OpenControls.C137_numbers",
    "OpenControls.C137_axes",
    "OpenControls.C137_items",
    "OpenControls.C137_accepts",
    "OpenControls.C137_column"
   ],
   "note": ""
  },
  {
   "property": "C138",
   "status": "proved",
   "theorems": [
    "OpenControls.C138_mean",
    "OpenControls.C138_filter_function",
    "OpenControls.C138_suppression",
    "OpenControls.C138_cutoff",
    "OpenControls.C138_slow",
    "OpenControls.C138_return_probability",
    "OpenControls.C138_gaussian",
    "OpenControls.C138_tones",
    "OpenControls.C138_tones_phase"
   ],
   "note": ""
  },
  {
   "property": "C139",
   "status": "proved",
   "theorems": [
    "OpenControls.C139_numbers",
    "OpenControls.C139_no_switch",
    "OpenControls.C139_sequence",
    "OpenControls.C139_exceptions",
    "OpenControls.C139_quadratic",
    "OpenControls.C139_switches"
   ],
   "note": ""
  },
  {
   "property": "C140",
   "status": "proved",
   "theorems": [
    "OpenControls.C140_converted",
    "OpenControls.C140_computed"
   ],
   "note": ""
  },
  {
   "property": "C141",
   "status": "proved",
   "theorems": [
    "OpenControls.C141_sequence",
    "OpenControls.C141_exception",
    "OpenControls.C141_duration",
    "OpenControls.C141_duration_first",
    "OpenControls.C141_gaussian",
    "OpenControls.C141_conversion",
    "OpenControls.C141_export"
   ],
   "note": ""
  },
  {
   "property": "C142",
   "status": "proved",
   "theorems": [
    "OpenControls.C142_backwards",
    "OpenControls.C142_not_removed",
    "OpenControls.C142_parity",
    "OpenControls.C142_phase",
    "OpenControls.C142_evolution"
   ],
   "note": ""
  },
  {
   "property": "C143",
   "status": "proved",
   "theorems": [
    "OpenControls.C143_no_phase",
    "OpenControls.C143_plane",
    "OpenControls.C143_composite",
    "OpenControls.C143_detuned",
    "OpenControls.C143_sk1",
    "OpenControls.C143_converted",
    "OpenControls.C143_family"
   ],
   "note": ""
  },
  {
   "property": "C144",
   "status": "proved",
   "theorems": [
    "OpenControls.C144_numbers",
    "OpenControls.C144_two_axes",
    "OpenControls.C144_above",
    "OpenControls.C144_predefined",
    "OpenControls.C144_short"
   ],
   "note": ""
  },
  {
   "property": "C145",
   "status": "proved",
   "theorems": [
    "OpenControls.C145_modulated",
    "OpenControls.C145_unmodulated",
    "OpenControls.C145_no_turn_about_X"
   ],
   "note": ""
  },
  {
   "property": "C146",
   "status": "proved",
   "theorems": [
    "OpenControls.C146_control",
    "OpenControls.C146_rate_and_rotation",
    "OpenControls.C146_tabulated",
    "OpenControls.C146_azimuth"
   ],
   "note": ""
  },
  {
   "property": "C147",
   "status": "proved",
   "theorems": [
    "OpenControls.C147_sign",
    "OpenControls.C147_alias",
    "OpenControls.C147_nyquist",
    "OpenControls.C147_nothing"
   ],
   "note": ""
  }
 ]
}