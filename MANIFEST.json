{
 "claims": [
  {
   "property": "C01",
   "status": "proved",
   "theorems": [
    "Verif.UnionFind.C01_find_iff_connected",
    "Verif.UnionFind.C01_return_values"
   ],
   "note": ""
  },
  {
   "property": "C02",
   "status": "partial",
   "theorems": [
    "Verif.UnionFind.C02_unite_representatives_partial",
    "Verif.UnionFind.C02_unite_member_diverges",
    "Verif.UnionFind.C02_unite_members_not_merged"
   ],
   "note": "The full statement (uniting arbitrary members) is false of the code; the two other theorems are machine-checked counterexamples. Proved for representatives."
  },
  {
   "property": "C03",
   "status": "proved",
   "theorems": [
    "Verif.ThreadPool.C03_parallel_for_exactly_once",
    "Verif.ThreadPool.C03_parallel_for_no_deadlock",
    "Verif.ThreadPool.C03_parallel_for_terminates",
    "Verif.ThreadPool.C03_plan",
    "Verif.ThreadPool.C03_chunks"
   ],
   "note": ""
  },
  {
   "property": "C04",
   "status": "proved",
   "theorems": [
    "Verif.ThreadPool.Ordered.C04_consumed_in_order",
    "Verif.ThreadPool.Ordered.C04_all_consumed_on_return"
   ],
   "note": ""
  },
  {
   "property": "C05",
   "status": "proved",
   "theorems": [
    "Verif.ThreadPool.Ordered.C05_ring_never_overrun",
    "Verif.ThreadPool.Ordered.C05_no_concurrent_slot_access",
    "Verif.ThreadPool.Ordered.C05_negative_start_out_of_bounds"
   ],
   "note": "Precondition first >= -max_pending; the last theorem shows it is needed."
  },
  {
   "property": "C06",
   "status": "proved",
   "theorems": [
    "Verif.ThreadPool.Ordered.C06_no_deadlock",
    "Verif.ThreadPool.Ordered.C06_terminates"
   ],
   "note": ""
  },
  {
   "property": "C07",
   "status": "partial",
   "theorems": [
    "Verif.ThreadPool.Ordered.C07_returns_after_workers_partial",
    "Verif.ThreadPool.Ordered.C07_spurious_wakeup_returns_early"
   ],
   "note": "False under spurious wake-ups (counterexample theorem); proved without them."
  },
  {
   "property": "C08",
   "status": "proved",
   "theorems": [
    "Verif.ThreadPool.Pool.C08_fifo",
    "Verif.ThreadPool.Pool.C08_join_drains",
    "Verif.ThreadPool.Pool.C08_no_lost_wakeup"
   ],
   "note": ""
  },
  {
   "property": "C09",
   "status": "partial",
   "theorems": [
    "Verif.Text.C09_coordinate_text_exact_partial",
    "Verif.Text.C09_stream_text_exact_partial",
    "Verif.Text.C09_zero_reads_before_buffer",
    "Verif.Text.C09_wide_coordinate_wraps"
   ],
   "note": "Proved for every non-zero 32-bit coordinate. False for 0 (reads before the buffer) and for 64-bit values outside 32 bits: counterexample theorems."
  },
  {
   "property": "C10",
   "status": "proved",
   "theorems": [
    "Verif.Text.C10_trimming_keeps_value",
    "Verif.Text.C10_text_within_half_unit"
   ],
   "note": "Finite values, precision 0..9."
  },
  {
   "property": "C11",
   "status": "proved",
   "theorems": [
    "Verif.Settings.C11_unlimited_lookup",
    "Verif.Settings.C11_limited_lookup",
    "Verif.Settings.C11_limited_lookup_exit",
    "Verif.Settings.C11_add_visible",
    "Verif.Settings.C11_add_frame",
    "Verif.Settings.C11_add_other_key"
   ],
   "note": ""
  },
  {
   "property": "C12",
   "status": "partial",
   "theorems": [
    "Verif.Settings.C12_terminates_and_agrees_partial",
    "Verif.Settings.C12_limited_and_held_partial",
    "Verif.Settings.C12_limited_lookup_diverges",
    "Verif.Settings.C12_has_diverges",
    "Verif.Settings.C12_get_and_has_disagree",
    "Verif.Settings.C12_get_diverges_although_scene_holds_key"
   ],
   "note": "False of the code: with a limit_to_extruder the lookup recurses forever in the cases given by the divergence theorems. Proved: without limits, and with limits when the extruder holds the key."
  },
  {
   "property": "C13",
   "status": "proved",
   "theorems": [
    "Verif.Text.C13_base64_round_trip"
   ],
   "note": ""
  },
  {
   "property": "C14",
   "status": "proved",
   "theorems": [
    "Verif.Text.C14_comment_lines",
    "Verif.Text.C14_carriage_return_passes_through"
   ],
   "note": "Lines end at the line feed; the second theorem records that a carriage return is passed through."
  },
  {
   "property": "C15",
   "status": "proved",
   "theorems": [
    "Verif.Template.C15_template_resolved",
    "Verif.Template.C15_newline_terminated",
    "Verif.Template.C15_comma_counterexample"
   ],
   "note": "Expression evaluation is an arbitrary partial function."
  },
  {
   "property": "C16",
   "status": "proved",
   "theorems": [
    "Verif.Template.C16_keyword_outside_block",
    "Verif.Template.C16_nested_if",
    "Verif.Template.C16_failing_outside",
    "Verif.Template.C16_failing_in_block",
    "Verif.Template.C16_markers_found",
    "Verif.Template.C16_not_an_extruder_number"
   ],
   "note": "The last theorem records what happens when the extruder expression has a value that is no extruder number: an exception or undefined behaviour, not the raw template."
  },
  {
   "property": "C17",
   "status": "partial",
   "theorems": [
    "Verif.Template.C17_nonboolean_if_rejected",
    "Verif.Template.C17_nonboolean_elif_is_false"
   ],
   "note": "The property is false of the code; what the code does instead is proved for all templates."
  },
  {
   "property": "C18",
   "status": "partial",
   "theorems": [
    "Verif.GCode.C18_recorded",
    "Verif.GCode.C18_travel",
    "Verif.GCode.C18_extrude",
    "Verif.GCode.C18_height_partial",
    "Verif.GCode.C18_travel_height_partial",
    "Verif.GCode.C18_extrude_height_partial",
    "Verif.GCode.C18_height_after_tool_change"
   ],
   "note": "X and Y proved for all histories. Height: proved whenever a Z word was due since the last tool change and no z-hop end is split; the counterexample theorem shows that the height is wrong after a tool change followed by a move to exactly one micron above the old height."
  },
  {
   "property": "C19",
   "status": "partial",
   "theorems": [
    "Verif.GCode.C19_hop_start",
    "Verif.GCode.C19_hop_end_partial",
    "Verif.GCode.C19_split_stays_raised",
    "Verif.GCode.C19_split_extrudes_raised"
   ],
   "note": "Without a split end. With a split end the code leaves the nozzle raised: counterexample theorems."
  },
  {
   "property": "C20",
   "status": "partial",
   "theorems": [
    "Verif.GCode.C20_accounting_partial",
    "Verif.GCode.C20_accounting_exact_partial",
    "Verif.GCode.C20_modes_agree_partial",
    "Verif.GCode.C20_modes_agree_exact_partial",
    "Verif.GCode.C20_flow_offset"
   ],
   "note": "All histories of calls as the planner makes them (AcctSpec.Allowed), without flow-rate extrusion offset, flavours with E words; the deviation with the offset is a theorem."
  },
  {
   "property": "C21",
   "status": "partial",
   "theorems": [
    "Verif.GCode.C21_report_partial",
    "Verif.GCode.C21_retraction_neutral_partial",
    "Verif.GCode.C21_pending_prime",
    "Verif.GCode.C21_primed_after_extrusion_partial",
    "Verif.GCode.C21_firmware_travel"
   ],
   "note": "All histories of calls as the planner makes them (AcctSpec.Allowed). Outside it the report is wrong for firmware retraction with travel amounts (counterexample theorem)."
  },
  {
   "property": "C22",
   "status": "proved",
   "theorems": [
    "Verif.GCode.C22_window",
    "Verif.GCode.C22_refused",
    "Verif.GCode.C22_performed",
    "Verif.GCode.C22_forced",
    "Verif.GCode.C22_bfb"
   ],
   "note": "Retractions during wipes and tool changes are exempt, as in the code; BFB writes no retractions."
  },
  {
   "property": "C23",
   "status": "partial",
   "theorems": [
    "Verif.Requests.C23_fan_partial",
    "Verif.Requests.C23_fan_clear_partial",
    "Verif.Requests.C23_fan_makerbot_partial",
    "Verif.Requests.C23_temp",
    "Verif.Requests.C23_temp_waited",
    "Verif.Requests.C23_tool",
    "Verif.Requests.C23_shared",
    "Verif.Requests.C23_shared_waited",
    "Verif.Requests.C23_bed_partial",
    "Verif.Requests.C23_acc",
    "Verif.Requests.C23_acc_separate",
    "Verif.Requests.C23_jerk",
    "Verif.Requests.C23_fan_counterexample",
    "Verif.Requests.C23_fan_makerbot_counterexample",
    "Verif.Requests.C23_temp_selects_counterexample",
    "Verif.Requests.C23_bed_wait_counterexample",
    "Verif.Requests.C23_bed_assumed_counterexample"
   ],
   "note": "Nozzle temperatures, acceleration and jerk in full. Fans: up to the smallest step, Makerbot with one fan number; bed: target without waiting, within one mesh group. The exceptions are real: counterexample theorems."
  },
  {
   "property": "C24",
   "status": "partial",
   "theorems": [
    "Verif.GCode.C24_contains",
    "Verif.GCode.C24_smallest_xy",
    "Verif.GCode.C24_smallest_z_partial",
    "Verif.GCode.C24_bfb_not_contained"
   ],
   "note": "Containment for all flavours but BFB (counterexample theorem); smallest in X and Y; in Z the box may also hold heights of moves that write no Z word."
  },
  {
   "property": "C25",
   "status": "partial",
   "theorems": [
    "Verif.Heat.C25_handle",
    "Verif.Heat.C25_written",
    "Verif.Heat.C25_flush",
    "Verif.Heat.C25_no_ub_partial",
    "Verif.Heat.C25_double_erase",
    "Verif.Heat.C25_disabled_counterexample"
   ],
   "note": "Once each, in order, at most five held back: proved for every run that ends. Runs without undefined behaviour: proved without final print temperatures; with them it is false (C25_double_erase)."
  },
  {
   "property": "C26",
   "status": "proved",
   "theorems": [
    "Verif.Heat.C26_place",
    "Verif.Heat.C26_short",
    "Verif.Heat.C26_insert",
    "Verif.Heat.C26_preheat"
   ],
   "note": ""
  },
  {
   "property": "C27",
   "status": "partial",
   "theorems": [
    "Verif.Heat.C27_time",
    "Verif.Heat.C27_warm_up_partial",
    "Verif.Heat.C27_warm_up_short",
    "Verif.Heat.C27_short_window_counterexample",
    "Verif.Heat.C27_cool_down_partial",
    "Verif.Heat.C27_cool_down_counterexample"
   ],
   "note": "Warm-up: proved for every window long enough for the plain change of temperature (shorter ones plan no heating: counterexample). Cool-down: when the middle temperature is reached; otherwise the shares are swapped (counterexample)."
  },
  {
   "property": "C28",
   "status": "partial",
   "theorems": [
    "Verif.Beading.C28_shape",
    "Verif.Beading.C28_left_over",
    "Verif.Beading.C28_widths",
    "Verif.Beading.C28_fill_partial",
    "Verif.Beading.C28_thin",
    "Verif.Beading.C28_apart",
    "Verif.Beading.C28_limit",
    "Verif.Beading.C28_overfull",
    "Verif.Beading.C28_negative",
    "Verif.Beading.C28_max_zero",
    "Verif.Beading.C28_thin_single_wall"
   ],
   "note": "For all reasonable settings (Spec.Sane). The widths can exceed the thickness by up to one unit per inner line (C28_overfull), and can be negative for a number of lines that does not fit (C28_negative); the optimal number always fits (C50_fits)."
  },
  {
   "property": "C29",
   "status": "proved",
   "theorems": [
    "Verif.Order.C29_free",
    "Verif.Order.C29_reverse",
    "Verif.Order.C29_required",
    "Verif.Order.C29_grouped",
    "Verif.Order.C29_nearest",
    "Verif.Order.C29_longest",
    "Verif.Order.C29_first",
    "Verif.Order.C29_loops",
    "Verif.Order.C29_cycle_drops_paths",
    "Verif.Order.C29_unknown_path",
    "Verif.Order.C29_empty_path"
   ],
   "note": "For every choice of seams, combing distances, grid neighbourhoods and hash order (parameters of the model), coordinates up to a kilometre. Requirements need distinct added values, paths with vertices and no cycle: each condition is shown to be needed."
  },
  {
   "property": "C30",
   "status": "proved",
   "theorems": [
    "Verif.Mst.C30_total",
    "Verif.Mst.C30_tree",
    "Verif.Mst.C30_minimal",
    "Verif.Mst.C30_length",
    "Verif.Mst.C30_no_cycle",
    "Verif.Mst.C30_leaves",
    "Verif.Mst.C30_duplicate"
   ],
   "note": "Points must differ: duplicates are undefined behaviour (C30_duplicate)."
  },
  {
   "property": "C31",
   "status": "proved",
   "theorems": [
    "Verif.Slicer.C31_heights",
    "Verif.Slicer.C31_adaptive"
   ],
   "note": ""
  },
  {
   "property": "C32",
   "status": "proved",
   "theorems": [
    "Verif.Slicer.C32_balance",
    "Verif.Slicer.C32_segments"
   ],
   "note": ""
  },
  {
   "property": "C33",
   "status": "partial",
   "theorems": [
    "Verif.Slicer.C33_from_below",
    "Verif.Slicer.C33_accuracy_partial",
    "Verif.Slicer.C33_in_range",
    "Verif.Slicer.C33_directions",
    "Verif.Slicer.C33_end_points_partial",
    "Verif.Slicer.C33_accuracy_counterexample",
    "Verif.Slicer.C33_end_point_counterexample"
   ],
   "note": "The accuracy is 5/4 units, not one, and a plane through an end point can be off by one: counterexample theorems. Range, the other direction and cuts from below are proved as stated."
  },
  {
   "property": "C34",
   "status": "proved",
   "theorems": [
    "Verif.Slicer.C34_partition",
    "Verif.Slicer.C34_bad_table"
   ],
   "note": "Tables with indices in range (as buildSegments makes them); an index out of range is undefined behaviour (second theorem)."
  },
  {
   "property": "C35",
   "status": "proved",
   "theorems": [
    "Verif.Slicer.C35_stitching",
    "Verif.Slicer.C35_points",
    "Verif.Slicer.C35_maximal"
   ],
   "note": "For every order of the queue."
  },
  {
   "property": "C36",
   "status": "partial",
   "theorems": [
    "Verif.Slicer.C36_not_an_ordering",
    "Verif.Slicer.C36_ordering_partial",
    "Verif.Slicer.C36_first_phase"
   ],
   "note": "False of the code (counterexample theorem); what holds is proved, including the whole property for the first phase."
  },
  {
   "property": "C37",
   "status": "proved",
   "theorems": [
    "Verif.Adaptive.C37_layers",
    "Verif.Adaptive.C37_positions",
    "Verif.Adaptive.C37_change",
    "Verif.Adaptive.C37_fine",
    "Verif.Adaptive.C37_two_steps",
    "Verif.Adaptive.C37_step_zero",
    "Verif.Adaptive.C37_no_height"
   ],
   "note": "Full specification of the height of every layer. A positive step and a positive height are needed (theorems for the cases without). The documented limit of one step between neighbouring layers does not hold downwards: two steps (C37_two_steps, C37_change)."
  },
  {
   "property": "C38",
   "status": "proved",
   "theorems": [
    "Verif.Grid.C38_nearby",
    "Verif.Grid.C38_documented_bound_fails",
    "Verif.Grid.C38_process",
    "Verif.Grid.C38_nearest",
    "Verif.Grid.C38_any"
   ],
   "note": "The documented upper bound (elements at most radius plus one cell away) is not kept, because the cell around zero is twice as large: counterexample theorem."
  },
  {
   "property": "C39",
   "status": "partial",
   "theorems": [
    "Verif.Box.C39_points",
    "Verif.Box.C39_smallest",
    "Verif.Box.C39_order",
    "Verif.Box.C39_hit",
    "Verif.Box.C39_hit_inverted",
    "Verif.Box.C39_contains",
    "Verif.Box.C39_contains_empty",
    "Verif.Box.C39_include",
    "Verif.Box.C39_include_empty",
    "Verif.Box.C39_expand",
    "Verif.Box.C39_expand_empty",
    "Verif.Box.C39_points3_partial",
    "Verif.Box.C39_points3_counterexample",
    "Verif.Box.C39_hit3",
    "Verif.Box.C39_operations3",
    "Verif.Box.C39_expand3",
    "Verif.Box.C39_expand3_unused"
   ],
   "note": "Proved as stated for flat boxes. In space the box of points outside the 32-bit range is too large (counterexample theorem)."
  },
  {
   "property": "C40",
   "status": "proved",
   "theorems": [
    "Verif.Time.C40_moves",
    "Verif.Time.C40_phases",
    "Verif.Time.C40_entry",
    "Verif.Time.C40_brake",
    "Verif.Time.C40_speed_up",
    "Verif.Time.C40_times",
    "Verif.Time.C40_motion",
    "Verif.Time.C40_junctions",
    "Verif.Time.C40_unique",
    "Verif.Time.C40_full_speed",
    "Verif.Time.C40_total",
    "Verif.Time.C40_add_time",
    "Verif.Time.C40_slow_counterexample",
    "Verif.Time.C40_motion_counterexample"
   ],
   "note": "Over the reals, for every history of calls whose moves are at least 0.05 mm/s fast (needed: C40_slow_counterexample)."
  },
  {
   "property": "C41",
   "status": "proved",
   "theorems": [
    "Verif.Layers.C41_slot",
    "Verif.Layers.C41_out_of_range",
    "Verif.Layers.C41_assign",
    "Verif.Layers.C41_order",
    "Verif.Layers.C41_grow",
    "Verif.Layers.C41_init"
   ],
   "note": ""
  },
  {
   "property": "C42",
   "status": "proved",
   "theorems": [
    "Verif.Text.C42_escape_reversible"
   ],
   "note": ""
  },
  {
   "property": "C43",
   "status": "proved",
   "theorems": [
    "Verif.Text.C43_case_compare_zero",
    "Verif.Text.C43_case_compare_antisymm"
   ],
   "note": ""
  },
  {
   "property": "C44",
   "status": "partial",
   "theorems": [
    "Verif.Text.C44_nonzero_is_written_nonzero_partial",
    "Verif.Text.C44_counted_as_zero_but_written_one"
   ],
   "note": "Only 'not counted as zero implies written non-zero' holds; the converse is false (counterexample theorem)."
  },
  {
   "property": "C45",
   "status": "partial",
   "theorems": [
    "Verif.Settings.C45_named_value_selected",
    "Verif.Settings.C45_one_typo_detected",
    "Verif.Settings.C45_unknown_hash_default",
    "Verif.Settings.C45_unknown_value_selects_enumerator",
    "Verif.Settings.C45_getters",
    "Verif.Settings.C45_getters_range",
    "Verif.Settings.C45_plugin_values",
    "Verif.Settings.C45_getters_typo",
    "Verif.Settings.C45_defaults",
    "Verif.Settings.C45_colon_counterexample"
   ],
   "note": "Hash collisions make the full property false (counterexample theorems), and so does the rule that any text with a colon after six characters is a plugin. All fifteen enumeration getters are modelled."
  },
  {
   "property": "C46",
   "status": "proved",
   "theorems": [
    "Verif.Settings.C46_integer_text",
    "Verif.Settings.C46_flag_from_integer",
    "Verif.Settings.C46_layer_number"
   ],
   "note": ""
  },
  {
   "property": "C47",
   "status": "proved",
   "theorems": [
    "Verif.GCode.C47_travel_speed",
    "Verif.GCode.C47_extrude_speed"
   ],
   "note": ""
  },
  {
   "property": "C48",
   "status": "partial",
   "theorems": [
    "Verif.GCode.C48_wipe_returns",
    "Verif.GCode.C48_wipe_height_partial",
    "Verif.GCode.C48_raised"
   ],
   "note": "X and Y always; height when the nozzle was not raised; otherwise false (counterexample theorem)."
  },
  {
   "property": "C49",
   "status": "partial",
   "theorems": [
    "Verif.Slicer.C49_outlines_closed_partial",
    "Verif.Slicer.C49_watertight_partial",
    "Verif.Slicer.C49_melding",
    "Verif.Slicer.C49_short_segment"
   ],
   "note": "Needs that no segment ending at a vertex on the plane is shorter than 0.013 mm; without it the claim is false of the code (C49_short_segment)."
  },
  {
   "property": "C50",
   "status": "proved",
   "theorems": [
    "Verif.Beading.C50_count",
    "Verif.Beading.C50_monotone",
    "Verif.Beading.C50_transition",
    "Verif.Beading.C50_fits",
    "Verif.Beading.C50_min_width"
   ],
   "note": "The transition is exact up to the transition thickness itself; at the limit it needs that a line is added at least ten units before its full width."
  },
  {
   "property": "C51",
   "status": "proved",
   "theorems": [
    "Verif.Grid.C51_covers",
    "Verif.Grid.C51_close",
    "Verif.Grid.C51_once",
    "Verif.Grid.C51_ends",
    "Verif.Grid.C51_meet",
    "Verif.Grid.C51_meet_only",
    "Verif.Grid.C51_near"
   ],
   "note": ""
  },
  {
   "property": "C52",
   "status": "proved",
   "theorems": [
    "Verif.Layers.C52_order",
    "Verif.Layers.C52_no_raft",
    "Verif.Layers.C52_filler"
   ],
   "note": ""
  },
  {
   "property": "C53",
   "status": "proved",
   "theorems": [
    "Verif.Layers.C53_floor",
    "Verif.Layers.C53_ceil",
    "Verif.Layers.C53_round",
    "Verif.Layers.C53_unsigned",
    "Verif.Layers.C53_zero"
   ],
   "note": ""
  },
  {
   "property": "C54",
   "status": "partial",
   "theorems": [
    "Verif.Heat.C54_partial",
    "Verif.Heat.C54_early_counterexample"
   ],
   "note": "Everything but 'not too early' for commands whose offset is smaller than the duration of the path before (counterexample)."
  },
  {
   "property": "C55",
   "status": "proved",
   "theorems": [
    "Verif.Heat.C55_range",
    "Verif.Heat.C55_standby_counterexample"
   ],
   "note": "Standby must be the lowest configured temperature (second theorem); extruders that share a heater must have one range."
  },
  {
   "property": "C56",
   "status": "partial",
   "theorems": [
    "Verif.Time.C56_speed",
    "Verif.Time.C56_acceleration_partial",
    "Verif.Time.C56_acceleration_counterexample",
    "Verif.Time.C56_junction"
   ],
   "note": "Speed and jerk: all moves. Acceleration: moves that do not extrude more than they move; false for others (counterexample)."
  },
  {
   "property": "C57",
   "status": "partial",
   "theorems": [
    "Verif.Cooling.C57_defined",
    "Verif.Cooling.C57_moves",
    "Verif.Cooling.C57_enough",
    "Verif.Cooling.C57_reached_partial",
    "Verif.Cooling.C57_speeds_partial",
    "Verif.Cooling.C57_not_longer_partial",
    "Verif.Cooling.C57_wait_partial",
    "Verif.Cooling.C57_short_counterexample",
    "Verif.Cooling.C57_below_minimum_counterexample",
    "Verif.Cooling.C57_negative_speed_counterexample",
    "Verif.Cooling.C57_wait_counterexample",
    "Verif.Cooling.C57_travel_only_counterexample"
   ],
   "note": "Which moves change and that long layers stay as they are: all layers. The time is reached when the slow-down goes at least to the slowest speed (otherwise false: C57_short_counterexample); the minimum speed is kept if no path is configured slower; waits are right for one extruder."
  },
  {
   "property": "C58",
   "status": "partial",
   "theorems": [
    "Verif.Cooling.C58_first_layers",
    "Verif.Cooling.C58_slowed",
    "Verif.Cooling.C58_interpolated",
    "Verif.Cooling.C58_range",
    "Verif.Cooling.C58_command",
    "Verif.Cooling.C58_threshold_counterexample"
   ],
   "note": "Everything for a threshold above the minimum layer time; false otherwise (counterexample)."
  },
  {
   "property": "C59",
   "status": "proved",
   "theorems": [
    "Verif.Cooling.C59_untouched",
    "Verif.Cooling.C59_factor"
   ],
   "note": ""
  },
  {
   "property": "C60",
   "status": "proved",
   "theorems": [
    "Verif.Flow.C60_route",
    "Verif.Flow.C60_defined",
    "Verif.Flow.C60_constant",
    "Verif.Flow.C60_zero_step",
    "Verif.Flow.C60_empty_first"
   ],
   "note": "For plans of paths with positive speed and volumes that are not negative, whose first path has a point; a step must take time (C60_zero_step)."
  },
  {
   "property": "C61",
   "status": "partial",
   "theorems": [
    "Verif.Flow.C61_rise_partial",
    "Verif.Flow.C61_fall_partial",
    "Verif.Flow.C61_end_partial",
    "Verif.Flow.C61_rate_counterexample",
    "Verif.Flow.C61_stuck_counterexample"
   ],
   "note": "The size of every step is bounded for all plans; that steps last as long as configured is false (C61_rate_counterexample)."
  },
  {
   "property": "C62",
   "status": "partial",
   "theorems": [
    "Verif.Extruders.C62_once",
    "Verif.Extruders.C62_complete_partial",
    "Verif.Extruders.C62_idle",
    "Verif.Extruders.C62_minimal",
    "Verif.Extruders.C62_begin",
    "Verif.Extruders.C62_spiral_counterexample",
    "Verif.Extruders.C62_filler_counterexample"
   ],
   "note": "Completeness holds unless a model is spiralized or the gap above a raft has support with another extruder (both with witness); the other parts hold for all prints."
  },
  {
   "property": "C63",
   "status": "partial",
   "theorems": [
    "Verif.Extruders.C63_primed_partial",
    "Verif.Extruders.C63_switch_partial",
    "Verif.Extruders.C63_first_of_layer_counterexample",
    "Verif.Extruders.C63_tower_counterexample"
   ],
   "note": "For prints with prime blobs in which the first use of an extruder is a tool change; otherwise false (C63_first_of_layer_counterexample)."
  },
  {
   "property": "C64",
   "status": "partial",
   "theorems": [
    "Verif.Extruders.C64_height_partial",
    "Verif.Extruders.C64_normal",
    "Verif.Extruders.C64_prime",
    "Verif.Extruders.C64_planned",
    "Verif.Extruders.C64_interleaved",
    "Verif.Extruders.C64_layer0_counterexample"
   ],
   "note": "The height is right above the first layer; on the first layer support with its own extruder is not counted (witness)."
  },
  {
   "property": "C65",
   "status": "partial",
   "theorems": [
    "Verif.Volumes.C65_owner_partial",
    "Verif.Volumes.C65_disjoint_partial",
    "Verif.Volumes.C65_union",
    "Verif.Volumes.C65_others",
    "Verif.Volumes.C65_wider_counterexample"
   ],
   "note": "For outlines inside the bounding boxes of their models; otherwise false (witness). No area is lost in any case."
  },
  {
   "property": "C66",
   "status": "proved",
   "theorems": [
    "Verif.Volumes.C66_models",
    "Verif.Volumes.C66_keeps",
    "Verif.Volumes.C66_recolour",
    "Verif.Volumes.C66_union",
    "Verif.Volumes.C66_disjoint"
   ],
   "note": "For closed meshes (surface mode normal)."
  },
  {
   "property": "C67",
   "status": "proved",
   "theorems": [
    "Verif.Volumes.C67_rest",
    "Verif.Volumes.C67_conserve",
    "Verif.Volumes.C67_once"
   ],
   "note": "For closed meshes (surface mode normal); what is made of an outline (walls, skin, infill) is a parameter that may not create infill outside of it."
  },
  {
   "property": "C68",
   "status": "partial",
   "theorems": [
    "Verif.Skin.C68_disjoint",
    "Verif.Skin.C68_cover",
    "Verif.Skin.C68_inside",
    "Verif.Skin.C68_hidden_partial",
    "Verif.Skin.C68_needed_partial"
   ],
   "note": "Disjointness, cover and containment for all settings; where skin is needed for settings without skin removal, negative expansion and the heuristic that ignores gaps."
  },
  {
   "property": "C69",
   "status": "partial",
   "theorems": [
    "Verif.Skin.C69_cover_partial",
    "Verif.Skin.C69_cover_single",
    "Verif.Skin.C69_disjoint",
    "Verif.Skin.C69_roofing",
    "Verif.Skin.C69_flooring",
    "Verif.Skin.C69_hole_counterexample"
   ],
   "note": "The cover is false with roofing and two or more flooring layers (witness), true otherwise."
  },
  {
   "property": "C70",
   "status": "partial",
   "theorems": [
    "Verif.Skin.C70_surfaces_partial",
    "Verif.Skin.C70_bottom_counterexample"
   ],
   "note": "Upper surfaces and the first layer; false for the other lower surfaces (witness)."
  },
  {
   "property": "C71",
   "status": "partial",
   "theorems": [
    "Verif.Skin.C71_density_partial",
    "Verif.Skin.C71_cross",
    "Verif.Skin.C71_connected_counterexample",
    "Verif.Skin.C71_hang_counterexample"
   ],
   "note": "For lines that are not connected and for cross patterns; false for other connected patterns, and the computation does not end for steps that are too small (witnesses)."
  },
  {
   "property": "C72",
   "status": "partial",
   "theorems": [
    "Verif.Skin.C72_once_partial",
    "Verif.Skin.C72_thick",
    "Verif.Skin.C72_mesh_counterexample"
   ],
   "note": "For one density and parts whose infill area is wholly their own; false with infill meshes (witness)."
  },
  {
   "property": "C73",
   "status": "proved",
   "theorems": [
    "Verif.Skin.C73_top",
    "Verif.Skin.C73_support",
    "Verif.Skin.C73_column"
   ],
   "note": "Offsets are a parameter that may not remove anything when growing."
  },
  {
   "property": "C74",
   "status": "partial",
   "theorems": [
    "Verif.Support.C74_clear_partial",
    "Verif.Support.C74_distance_partial",
    "Verif.Support.C74_own",
    "Verif.Support.Cases.C74_other_counterexample",
    "Verif.Support.Cases.C74_overlap_counterexample"
   ],
   "note": "Outside of models that do not overlap; the full distance if X/Y has priority, on the first layer and for support meshes; the minimum distance from the mesh itself otherwise. False for other meshes if Z has priority, and where models overlap (witnesses)."
  },
  {
   "property": "C75",
   "status": "partial",
   "theorems": [
    "Verif.Support.C75_top_partial",
    "Verif.Support.C75_bottom_partial",
    "Verif.Support.Cases.C75_top_counterexample",
    "Verif.Support.Cases.C75_bottom_counterexample"
   ],
   "note": "For the layer exactly at the distance; false for the layers nearer to it (witnesses)."
  },
  {
   "property": "C76",
   "status": "partial",
   "theorems": [
    "Verif.Support.C76_supported_partial",
    "Verif.Support.C76_needed_partial",
    "Verif.Support.Cases.C76_stairs_counterexample"
   ],
   "note": "Supported: for a disk of overhang without models near below it, vertical support, and stairs only together with a distance or down to the build plate. Needed: for support that is not joined, expanded or widened by towers. False with stairs and no distance (witness)."
  },
  {
   "property": "C77",
   "status": "partial",
   "theorems": [
    "Verif.Support.C77_once",
    "Verif.Support.C77_inside",
    "Verif.Support.C77_cover",
    "Verif.Support.C77_roof_partial",
    "Verif.Support.C77_bottom_partial"
   ],
   "note": "Interface exactly where it should be for offsets that are not negative and no minimum area; the rest for all settings."
  },
  {
   "property": "C78",
   "status": "partial",
   "theorems": [
    "Verif.Support.C78_plate_partial",
    "Verif.Support.Cases.C78_floating_counterexample"
   ],
   "note": "For vertical support, as long as the top distance cuts nothing out below; false otherwise (witness)."
  },
  {
   "property": "C79",
   "status": "proved",
   "theorems": [
    "Verif.Support.C79_two"
   ],
   "note": "For any operations on areas that meet the contract."
  },
  {
   "property": "C80",
   "status": "partial",
   "theorems": [
    "Verif.Support.C80_reach_partial",
    "Verif.Support.C80_steps",
    "Verif.Support.Cases.C80_far_counterexample",
    "Verif.Support.Cases.C80_negative_counterexample"
   ],
   "note": "At least as wide as set, where there are no models below; wider than set, and without effect if negative (witnesses)."
  },
  {
   "property": "C81",
   "status": "partial",
   "theorems": [
    "Verif.Support.C81_blocked_partial",
    "Verif.Support.Cases.C81_edge_counterexample"
   ],
   "note": "Well inside of the blocker, for support that is not widened; false near its border (witness)."
  },
  {
   "property": "C82",
   "status": "partial",
   "theorems": [
    "Verif.Support.C82_printed_partial",
    "Verif.Support.Cases.C82_last_counterexample"
   ],
   "note": "Away from models, for vertical support, but not on the last layers (witness)."
  },
  {
   "property": "C83",
   "status": "partial",
   "theorems": [
    "Verif.Support.C83_exact_partial",
    "Verif.Support.C83_same_partial",
    "Verif.Support.C83_defined_partial",
    "Verif.Support.C83_undefined_counterexample",
    "Verif.Support.Cases.C83_distance_counterexample"
   ],
   "note": "If the behaviour is defined; undefined for three or more islands in a vector that is full (witness); the line distance may be lost (witness)."
  },
  {
   "property": "C84",
   "status": "partial",
   "theorems": [
    "Verif.Load.C84_binary_partial",
    "Verif.Load.C84_header_partial",
    "Verif.Load.C84_short_partial",
    "Verif.Load.C84_socket_partial",
    "Verif.Load.Cases.C84_nan_counterexample",
    "Verif.Load.Cases.C84_solid_counterexample",
    "Verif.Load.Cases.C84_uv_counterexample"
   ],
   "note": "For finite coordinates that fit, and headers that do not look like a text with vertices; otherwise undefined or misread (witnesses)."
  },
  {
   "property": "C85",
   "status": "partial",
   "theorems": [
    "Verif.Load.C85_text_partial",
    "Verif.Load.Cases.C85_long_counterexample",
    "Verif.Load.Cases.C85_capitals_counterexample"
   ],
   "note": "For lines of less than 1024 bytes and keywords in small letters; false otherwise (witnesses). Rounding of the text of a number is a parameter."
  },
  {
   "property": "C86",
   "status": "partial",
   "theorems": [
    "Verif.Load.C86_obj_partial",
    "Verif.Load.Cases.C86_relative_counterexample",
    "Verif.Load.Cases.C86_weight_counterexample",
    "Verif.Load.Cases.C86_blank_counterexample",
    "Verif.Load.Cases.C86_windows_counterexample",
    "Verif.Load.Cases.C86_tiny_counterexample",
    "Verif.Load.Cases.C86_huge_counterexample",
    "Verif.Load.Cases.C86_extension_counterexample"
   ],
   "note": "For files with positive indices, three numbers per vertex and line feeds; false for other files that the format allows (witnesses)."
  },
  {
   "property": "C87",
   "status": "proved",
   "theorems": [
    "Verif.Load.C87_place",
    "Verif.Load.C87_unscaled",
    "Verif.Load.C87_box",
    "Verif.Load.Cases.C87_nothing_counterexample"
   ],
   "note": "For groups with a model, coordinates of at most 32 bits after moving and exact double precision; a group without a model is moved away (witness)."
  },
  {
   "property": "C88",
   "status": "partial",
   "theorems": [
    "Verif.Mold.C88_cavity_partial",
    "Verif.Mold.C88_wall_partial",
    "Verif.Mold.C88_roof_partial",
    "Verif.Mold.C88_slope_partial",
    "Verif.Mold.C88_reach_partial",
    "Verif.Mold.C88_others_partial",
    "Verif.Mold.Cases.C88_roof_counterexample",
    "Verif.Mold.Cases.C88_surface_counterexample"
   ],
   "note": "Offsets by contract. The roof is missing above parts that are thinner than it and above open surfaces (witnesses)."
  },
  {
   "property": "C89",
   "status": "partial",
   "theorems": [
    "Verif.Mold.C89_keep_partial",
    "Verif.Mold.C89_overhang_partial",
    "Verif.Mold.C89_foot_partial",
    "Verif.Mold.C89_below_partial",
    "Verif.Mold.C89_hole_partial",
    "Verif.Mold.C89_straight_partial",
    "Verif.Mold.Cases.C89_hole_counterexample",
    "Verif.Mold.Cases.C89_foot_counterexample"
   ],
   "note": "Offsets by contract, smoothing a parameter. Small holes do not stay open for angles of 0 and below (witnesses)."
  },
  {
   "property": "C90",
   "status": "partial",
   "theorems": [
    "Verif.Cli.C90_scene_partial",
    "Verif.Cli.C90_placed_partial",
    "Verif.Cli.Cases.C90_reallocation_counterexample",
    "Verif.Cli.Cases.C90_late_extruder_counterexample",
    "Verif.Cli.Cases.C90_numbers_counterexample",
    "Verif.Cli.Cases.C90_placed_counterexample",
    "Verif.Cli.Cases.C90_rotation_counterexample",
    "Verif.Cli.Cases.C90_groups_counterexample",
    "Verif.Cli.Cases.C90_paths_counterexample"
   ],
   "note": "For command lines of the documented items with extruders in ascending order and room for them in the vector, without --force options and -r. The rest is wrong (witnesses)."
  },
  {
   "property": "C91",
   "status": "proved",
   "theorems": [
    "Verif.Cli.C91_inheritance",
    "Verif.Cli.Cases.C91_cycle_counterexample",
    "Verif.Cli.Cases.C91_directory_counterexample",
    "Verif.Cli.Cases.C91_document_counterexample",
    "Verif.Cli.Cases.C91_extruder_counterexample"
   ],
   "note": "For files that make sense; cycles and malformed documents are shown by witnesses."
  },
  {
   "property": "C92",
   "status": "partial",
   "theorems": [
    "Verif.Cli.C92_number_partial",
    "Verif.Cli.C92_text_partial",
    "Verif.Cli.Cases.C92_small_counterexample",
    "Verif.Cli.Cases.C92_array_counterexample"
   ],
   "note": "Numbers within half a millionth; arrays whose elements all have a text."
  },
  {
   "property": "C93",
   "status": "partial",
   "theorems": [
    "Verif.Cli.C93_values_partial",
    "Verif.Cli.Cases.C93_models_counterexample",
    "Verif.Cli.Cases.C93_numbers_counterexample",
    "Verif.Cli.Cases.C93_limit_counterexample"
   ],
   "note": "Parts for everything and for extruders. Parts for models and the numbers of extruders are wrong (witnesses)."
  },
  {
   "property": "C94",
   "status": "partial",
   "theorems": [
    "Verif.Cli.C94_refused_partial",
    "Verif.Cli.Cases.C94_callback_counterexample",
    "Verif.Cli.Cases.C94_number_counterexample",
    "Verif.Cli.Cases.C94_unknown_counterexample"
   ],
   "note": "Behind items as in C90. Missing numbers, callbacks and unknown long options are not refused properly (witnesses)."
  },
  {
   "property": "C95",
   "status": "partial",
   "theorems": [
    "Verif.Monotonic.C95_once_partial",
    "Verif.Monotonic.C95_monotonic_partial",
    "Verif.Monotonic.C95_passes_partial",
    "Verif.Monotonic.C95_twice_counterexample",
    "Verif.Monotonic.C95_string_counterexample"
   ],
   "note": "For lines whose ends do not touch. Lines that touch can be printed twice (witness)."
  },
  {
   "property": "C96",
   "status": "proved",
   "theorems": [
    "Verif.Lines.C96_lines",
    "Verif.Lines.C96_right_side"
   ],
   "note": "Up to a micrometre at the outline (rounding), and but for places thinner than a fifth of the line width, which the code leaves out, and for a line on the right side of the bounding box."
  },
  {
   "property": "C97",
   "status": "proved",
   "theorems": [
    "Verif.Lines.C97_zigzag",
    "Verif.Lines.C97_one_link",
    "Verif.Lines.C97_printed",
    "Verif.Lines.C97_tiny_end_counterexample"
   ],
   "note": "The exact set of connections. The witness shows that whether a tiny end piece is printed depends on where the polygon begins."
  },
  {
   "property": "C98",
   "status": "proved",
   "theorems": [
    "Verif.Simplify.C98_steps",
    "Verif.Simplify.C98_order",
    "Verif.Simplify.C98_ends",
    "Verif.Simplify.C98_no_longer",
    "Verif.Simplify.C98_line_distance",
    "Verif.Simplify.C98_segment_distance",
    "Verif.Simplify.C98_moved"
   ],
   "note": "For points and junctions, any intersection function and all settings whose square fits into 63 bits."
  },
  {
   "property": "C99",
   "status": "partial",
   "theorems": [
    "Verif.Simplify.C99_corners_partial",
    "Verif.Simplify.C99_no_tiny_partial",
    "Verif.Simplify.C99_spike_counterexample",
    "Verif.Simplify.C99_drift_counterexample",
    "Verif.Simplify.C99_width_counterexample",
    "Verif.Simplify.C99_vanish_counterexample"
   ],
   "note": "Holds for nothing left to simplify and no tiny segments, if more than the least number of vertices is left. The promise about the deviation of the path and the area is false, as is that polygons with more than three vertices stay."
  },
  {
   "property": "C100",
   "status": "partial",
   "theorems": [
    "Verif.Coasting.C100_coasting_partial",
    "Verif.Coasting.C100_volume_partial",
    "Verif.Coasting.C100_width_counterexample",
    "Verif.Coasting.C100_minimal_counterexample",
    "Verif.Coasting.C100_last_counterexample"
   ],
   "note": "Holds when the coasting volume is not above the minimal volume, for volumes at the configured line width; the code does not account for width factors and skips short walls when the settings are the other way round."
  },
  {
   "property": "C101",
   "status": "partial",
   "theorems": [
    "Verif.Ooze.C101_travel_partial",
    "Verif.Ooze.C101_exact_partial",
    "Verif.Ooze.C101_overshoot_counterexample",
    "Verif.Ooze.C101_unretract_counterexample"
   ],
   "note": "Order, amounts and times hold for all travels; the positions are exact unless a point is within a millisecond, otherwise the nozzle may overshoot. Unretracting before the last move does not work."
  },
  {
   "property": "C102",
   "status": "partial",
   "theorems": [
    "Verif.Ooze.C102_fits",
    "Verif.Ooze.C102_whole",
    "Verif.Ooze.C102_proportion",
    "Verif.Ooze.C102_order",
    "Verif.Ooze.C102_nonneg_partial",
    "Verif.Ooze.C102_blob_counterexample"
   ],
   "note": "Everything but that the amount while still is not negative holds in general; that holds without z-hop and fails with it."
  },
  {
   "property": "C103",
   "status": "partial",
   "theorems": [
    "Verif.Spiral.C103_layer_partial",
    "Verif.Spiral.C103_written",
    "Verif.Spiral.C103_print_partial",
    "Verif.Spiral.C103_chain_partial",
    "Verif.Spiral.C103_top_partial",
    "Verif.Spiral.C103_top_counterexample",
    "Verif.Spiral.C103_rest_counterexample",
    "Verif.Spiral.C103_first_counterexample",
    "Verif.Spiral.C103_hole_counterexample"
   ],
   "note": "Holds if every layer has one wall and is as thick as the next one is higher, up to the last layer; fails otherwise, and on the last layer."
  },
  {
   "property": "C104",
   "status": "partial",
   "theorems": [
    "Verif.Spiral.C104_layer",
    "Verif.Spiral.C104_top",
    "Verif.Spiral.C104_speed",
    "Verif.Spiral.C104_seam_partial",
    "Verif.Spiral.C104_hint_counterexample"
   ],
   "note": "The way, flow and speed hold for all walls; the seams of consecutive layers too (the side test is a parameter); the first seam is not where it should be."
  },
  {
   "property": "C105",
   "status": "proved",
   "theorems": [
    "Verif.Polylines.C105_chains",
    "Verif.Polylines.C105_segments",
    "Verif.Polylines.C105_vertices",
    "Verif.Polylines.C105_even_counterexample"
   ],
   "note": "For a positive maximal distance. The counterexample is on a comment in the code that prefers closing even walls, not on the statement."
  },
  {
   "property": "C106",
   "status": "proved",
   "theorems": [
    "Verif.Walls.C106_walls",
    "Verif.Walls.C106_inset",
    "Verif.Walls.C106_region",
    "Verif.Walls.C106_alternate",
    "Verif.Walls.C106_seam",
    "Verif.Walls.C106_separate_counterexample",
    "Verif.Walls.C106_gap_counterexample",
    "Verif.Walls.C106_alternate_counterexample",
    "Verif.Walls.C106_width_counterexample"
   ],
   "note": "The counterexamples show what does not hold beyond the statement: with a separate extruder for inner walls and optimized order, across a missing inset, for the place of the seam of closed alternating walls, and for the width of an inserted seam point."
  },
  {
   "property": "C107",
   "status": "proved",
   "theorems": [
    "Verif.Scarf.C107_follow",
    "Verif.Scarf.C107_heights",
    "Verif.Scarf.C107_speed",
    "Verif.Scarf.C107_closure",
    "Verif.Scarf.C107_wall",
    "Verif.Scarf.C107_pieces",
    "Verif.Scarf.C107_small",
    "Verif.Scarf.C107_flow",
    "Verif.Scarf.C107_vertex_counterexample",
    "Verif.Scarf.C107_index_counterexample",
    "Verif.Scarf.C107_small_counterexample",
    "Verif.Scarf.C107_short_counterexample",
    "Verif.Scarf.C107_split_counterexample",
    "Verif.Scarf.C107_flow_counterexample"
   ],
   "note": "The counterexamples show what does not hold beyond the statement: vertices of walls of varying width, the index of the segment when going backwards, small features with a scarf, walls shorter than the deceleration, a split distance of 0, and the flow on the ramp."
  },
  {
   "property": "C108",
   "status": "proved",
   "theorems": [
    "Verif.Bridge.C108_bridges",
    "Verif.Bridge.C108_line",
    "Verif.Bridge.C108_coast",
    "Verif.Bridge.C108_approach",
    "Verif.Bridge.C108_speed",
    "Verif.Bridge.C108_corner_counterexample",
    "Verif.Bridge.C108_touch_counterexample",
    "Verif.Bridge.C108_slow_counterexample",
    "Verif.Bridge.C108_early_counterexample",
    "Verif.Bridge.C108_second_counterexample"
   ],
   "note": "C108_bridges takes the stretches over air to be those between the intersections found; the counterexamples show what does not hold beyond the statement: lines through corners of the unsupported area, bridges of no length, reduced speeds, coasting before a bridge of the next line and before the second bridge of a line."
  },
  {
   "property": "C109",
   "status": "proved",
   "theorems": [
    "Verif.Tree.C109_collision",
    "Verif.Tree.C109_way_down",
    "Verif.Tree.C109_way_to_rest",
    "Verif.Tree.C109_way_to_free",
    "Verif.Tree.C109_stands",
    "Verif.Tree.C109_history",
    "Verif.Tree.C109_collision_history",
    "Verif.Tree.C109_radius",
    "Verif.Tree.C109_answered",
    "Verif.Tree.Cases.C109_first_layer_counterexample",
    "Verif.Tree.Cases.C109_still_counterexample",
    "Verif.Tree.Cases.C109_radius_counterexample"
   ],
   "note": "The offsets and the simplification of polygons enter as assumptions (Ops.Ok, Ops.Tight), met by exact operations. The counterexamples show the exceptions named in the statement: the layers above a model's first layer, movements of 2 micron, tips thicker than 3 mm."
  },
  {
   "property": "C110",
   "status": "proved",
   "theorems": [
    "Verif.Tree.C110_hops",
    "Verif.Tree.C110_whole",
    "Verif.Tree.C110_grown",
    "Verif.Tree.Cases.C110_rest_counterexample",
    "Verif.Tree.Cases.C110_zero_counterexample",
    "Verif.Tree.Cases.C110_leap_counterexample"
   ],
   "note": "The offset with rounded joins is taken to cover the points within the distance and no others (Ops.Round); the simplification may deviate. The counterexamples show what is excluded in the statement, and that the other function that offsets in steps does not have the property."
  },
  {
   "property": "C111",
   "status": "proved",
   "theorems": [
    "Verif.Nodes.C111_safe",
    "Verif.Nodes.C111_held",
    "Verif.Nodes.C111_area",
    "Verif.Nodes.C111_kept",
    "Verif.Nodes.C111_no_gap",
    "Verif.Nodes.C111_gap_counterexample",
    "Verif.Nodes.C111_follow_counterexample"
   ],
   "note": "Which points the areas provide is a parameter; that points moved into an area are in it is an assumption (InAreas). The links between elements are as the step before makes them (Input.Ok, Start). The counterexamples show that what is claimed for the build plate only does not hold for the other preferences."
  },
  {
   "property": "C112",
   "status": "proved",
   "theorems": [
    "Verif.Travel.C112_route",
    "Verif.Travel.C112_retract",
    "Verif.Travel.C112_kept",
    "Verif.Travel.C112_first",
    "Verif.Travel.C112_connect",
    "Verif.Travel.C112_not_retracted_counterexample",
    "Verif.Travel.C112_forced_counterexample",
    "Verif.Travel.C112_inside_counterexample",
    "Verif.Travel.C112_fan_counterexample",
    "Verif.Travel.C112_empty_counterexample"
   ],
   "note": "Which way a travel takes inside of the model and where it is moved inside are parameters. The counterexamples show what a reader might expect beyond the claim and does not hold."
  },
  {
   "property": "C113",
   "status": "proved",
   "theorems": [
    "Verif.Lightning.C113_generate",
    "Verif.Lightning.C113_layer",
    "Verif.Lightning.C113_branches",
    "Verif.Lightning.C113_cells",
    "Verif.Lightning.C113_same_cell_counterexample",
    "Verif.Lightning.C113_reconnect_counterexample",
    "Verif.Lightning.C113_walls_counterexample"
   ],
   "note": "Closest points and crossings are parameters that are assumed to be on the outline. Support is by a node within the supporting radius."
  },
  {
   "property": "C114",
   "status": "proved",
   "theorems": [
    "Verif.Lightning.C114_prune",
    "Verif.Lightning.C114_straighten",
    "Verif.Lightning.C114_realign",
    "Verif.Lightning.C114_next"
   ],
   "note": "How far a node is moved is a parameter that is bounded by an assumption."
  },
  {
   "property": "C115",
   "status": "proved",
   "theorems": [
    "Verif.Lightning.C115_lines",
    "Verif.Lightning.C115_overlap",
    "Verif.Lightning.C115_shorten"
   ],
   "note": "Without the intersection of the lines with the outline."
  },
  {
   "property": "C116",
   "status": "proved",
   "theorems": [
    "Verif.View.C116_view",
    "Verif.View.C116_format",
    "Verif.View.C116_object",
    "Verif.View.Cases.C116_between_counterexample",
    "Verif.View.Cases.C116_raft_counterexample",
    "Verif.View.Cases.C116_switch_counterexample",
    "Verif.View.Cases.C116_no_model_counterexample",
    "Verif.View.Cases.C116_end_counterexample"
   ],
   "note": "Jumps that were not asked for are marked with type 0 and are not compared. The socket is not modelled."
  },
  {
   "property": "C117",
   "status": "proved",
   "theorems": [
    "Verif.View.C117_overall",
    "Verif.View.C117_stages",
    "Verif.View.C117_bar",
    "Verif.View.C117_full",
    "Verif.View.Cases.C117_no_model_counterexample",
    "Verif.View.Cases.C117_only_end_counterexample"
   ],
   "note": "Rational numbers instead of doubles."
  },
  {
   "property": "C118",
   "status": "proved",
   "theorems": [
    "Verif.SubDiv.C118_sides",
    "Verif.SubDiv.C118_tree",
    "Verif.SubDiv.C118_valid",
    "Verif.SubDiv.C118_tested",
    "Verif.SubDiv.C118_lines",
    "Verif.SubDiv.C118_combine",
    "Verif.SubDiv.Cases.C118_second_mesh_counterexample",
    "Verif.SubDiv.Cases.C118_third_layer_counterexample"
   ],
   "note": "For the first mesh of a run. That all lines that meet are joined is not claimed."
  },
  {
   "property": "C119",
   "status": "proved",
   "theorems": [
    "Verif.Skirt.C119_ends",
    "Verif.Skirt.C119_length",
    "Verif.Skirt.C119_lines",
    "Verif.Skirt.C119_order",
    "Verif.Skirt.C119_apart",
    "Verif.Skirt.C119_inside",
    "Verif.Skirt.C119_stored",
    "Verif.Skirt.C119_allowed",
    "Verif.Skirt.Cases.C119_short_counterexample",
    "Verif.Skirt.Cases.C119_hole_counterexample"
   ],
   "note": "Lengths and distances are those before lines are joined, short pieces removed and lines simplified."
  },
  {
   "property": "C120",
   "status": "proved",
   "theorems": [
    "Verif.Voxel.C120_line",
    "Verif.Voxel.C120_kernel",
    "Verif.Voxel.C120_polygons",
    "Verif.Voxel.C120_dilated",
    "Verif.Voxel.C120_even_counterexample"
   ],
   "note": "Fractions of a line are exact instead of doubles."
  },
  {
   "property": "C121",
   "status": "partial",
   "theorems": [
    "Verif.Interlock.C121_beams",
    "Verif.Interlock.C121_whole",
    "Verif.Interlock.C121_upper",
    "Verif.Interlock.C121_ends",
    "Verif.Interlock.C121_shell",
    "Verif.Interlock.C121_short_counterexample",
    "Verif.Interlock.C121_below_counterexample"
   ],
   "note": "The code does not satisfy the full property: material is lost where the first mesh is lower, and memory outside of a vector is read for cells below the first layer. Proved for layers both meshes have. Changes of thin areas and rounding of the rotation are not modelled."
  },
  {
   "property": "C122",
   "status": "partial",
   "theorems": [
    "Verif.Sierp.C122_triangles",
    "Verif.Sierp.C122_area",
    "Verif.Sierp.C122_length",
    "Verif.Sierp.C122_value",
    "Verif.Sierp.C122_connected_partial",
    "Verif.Sierp.C122_points",
    "Verif.Sierp.C122_edges",
    "Verif.Sierp.C122_counterexample",
    "Verif.Sierp.C122_middle_counterexample"
   ],
   "note": "The code does not satisfy the full property: the curve is not always connected. Proved that dithering keeps it connected, and all else in full for rational numbers instead of doubles."
  },
  {
   "property": "C123",
   "status": "partial",
   "theorems": [
    "Verif.Comb.C123_path",
    "Verif.Comb.C123_clear",
    "Verif.Comb.C123_refused",
    "Verif.Comb.C123_mark_counterexample"
   ],
   "note": "The code does not satisfy the full property: a path that crosses the boundary is never marked. Everything else is proved; that ends are on different sides up to a unit of rounding."
  },
  {
   "property": "C124",
   "status": "partial",
   "theorems": [
    "Verif.Wipe.C124_wipe",
    "Verif.Wipe.C124_nowhere",
    "Verif.Wipe.C124_off",
    "Verif.Wipe.C124_open_counterexample"
   ],
   "note": "The code does not satisfy the full property: open walls are wiped as if they were closed. For closed walls it is proved."
  },
  {
   "property": "C125",
   "status": "partial",
   "theorems": [
    "Verif.FirstLayers.C125_heights",
    "Verif.FirstLayers.C125_removed",
    "Verif.FirstLayers.C125_plate",
    "Verif.FirstLayers.C125_thick_counterexample",
    "Verif.FirstLayers.C125_raft_counterexample"
   ],
   "note": "The code does not satisfy the full property: with a thicker first layer, or a raft, the heights are wrong after removing. Otherwise it is proved."
  },
  {
   "property": "C126",
   "status": "proved",
   "theorems": [
    "Verif.InfillOrder.C126_added",
    "Verif.InfillOrder.C126_kept",
    "Verif.InfillOrder.C126_order",
    "Verif.InfillOrder.C126_others",
    "Verif.InfillOrder.C126_walls",
    "Verif.InfillOrder.C126_closest",
    "Verif.InfillOrder.C126_end",
    "Verif.InfillOrder.C126_plan"
   ],
   "note": ""
  },
  {
   "property": "C127",
   "status": "partial",
   "theorems": [
    "Verif.BelowSkin.C127_plain",
    "Verif.BelowSkin.C127_one",
    "Verif.BelowSkin.C127_again_counterexample",
    "Verif.BelowSkin.C127_dense_counterexample",
    "Verif.BelowSkin.C127_lost_counterexample"
   ],
   "note": "The code does not satisfy the full property with gradual infill. Without gradual infill, or without skin above, it is proved."
  },
  {
   "property": "C128",
   "status": "partial",
   "theorems": [
    "Verif.Overhang.C128_done",
    "Verif.Overhang.C128_plain",
    "Verif.Overhang.C128_route",
    "Verif.Overhang.C128_speed_partial",
    "Verif.Overhang.C128_regions",
    "Verif.Overhang.C128_border_counterexample"
   ],
   "note": "The code does not satisfy it for walls that begin, end or touch exactly on the border of a region (witness). For all others it is proved."
  },
  {
   "property": "C129",
   "status": "partial",
   "theorems": [
    "Verif.Overhang.C129_ended_partial",
    "Verif.Overhang.C129_not_ended",
    "Verif.Overhang.C129_counterexample"
   ],
   "note": "The code does not satisfy the full property: the overhang at the end of a layer is left out (witness)."
  },
  {
   "property": "C130",
   "status": "proved",
   "theorems": [
    "Verif.SkinLine.C130_settings",
    "Verif.SkinLine.C130_route",
    "Verif.SkinLine.C130_touch_counterexample"
   ],
   "note": "For parts that do not touch each other; what happens if they do is shown by the counterexample."
  },
  {
   "property": "C131",
   "status": "partial",
   "theorems": [
    "Verif.Configs.C131_own_partial",
    "Verif.Configs.C131_model",
    "Verif.Configs.C131_settings",
    "Verif.Configs.C131_settings_others",
    "Verif.Configs.C131_thickness",
    "Verif.Configs.C131_first_flow",
    "Verif.Configs.C131_first_flow_others",
    "Verif.Configs.C131_first_width",
    "Verif.Configs.C131_first_width_others",
    "Verif.Configs.C131_width",
    "Verif.Configs.C131_combined",
    "Verif.Configs.C131_bottom_counterexample",
    "Verif.Configs.C131_raft_counterexample",
    "Verif.Configs.C131_surface_counterexample"
   ],
   "note": "False of the code for the flow of the bottom of support and of the middle and top layers of a raft, as the counterexamples show; on layers up to 0, the speeds of support also depend on the extruder for the support of the first layer."
  },
  {
   "property": "C132",
   "status": "partial",
   "theorems": [
    "Verif.Configs.C132_ramp_partial",
    "Verif.Configs.C132_rising",
    "Verif.Configs.C132_steady",
    "Verif.Configs.C132_others_counterexample",
    "Verif.Configs.C132_below_counterexample"
   ],
   "note": "False of the code for some features and for layers below the first one, as the counterexamples show."
  },
  {
   "property": "C133",
   "status": "partial",
   "theorems": [
    "Verif.Gyroid.C133_connections_partial",
    "Verif.Gyroid.C133_twice_counterexample",
    "Verif.Gyroid.C133_itself_counterexample",
    "Verif.Gyroid.C133_loop_counterexample"
   ],
   "note": "False of the code over the begin of an outline, for pieces in one row and for loops of three lines, as the counterexamples show."
  },
  {
   "property": "C134",
   "status": "partial",
   "theorems": [
    "Verif.GCode.C134_pulled_back_partial",
    "Verif.GCode.C134_primed_partial",
    "Verif.GCode.C134_firmware_pulled_back_partial",
    "Verif.GCode.C134_firmware_primed_partial",
    "Verif.GCode.C134_refused",
    "Verif.GCode.C134_zero_distance_counterexample"
   ],
   "note": "All histories of calls as the planner makes them (AcctSpec.Allowed), without flow-rate offset for E words and with positive distances for firmware retraction; with a distance of zero false of the code, as the counterexample shows."
  },
  {
   "property": "C135",
   "status": "partial",
   "theorems": [
    "Verif.Seam.C135_chosen_partial",
    "Verif.Seam.C135_none",
    "Verif.Seam.C135_single",
    "Verif.Seam.C135_within_twice_partial",
    "Verif.Seam.C135_second_pass",
    "Verif.Seam.C135_exact",
    "Verif.Seam.C135_threshold_counterexample"
   ],
   "note": "False of the code with several passes: candidates up to twice the threshold worse than the best may stay, as the counterexample shows. Exact with one pass, and if no candidate before the best one is removed."
  },
  {
   "property": "C136",
   "status": "partial",
   "theorems": [
    "Verif.Seam.C136_in_range",
    "Verif.Seam.C136_overhang_avoided",
    "Verif.Seam.C136_painted",
    "Verif.Seam.C136_nearest",
    "Verif.Seam.C136_forced",
    "Verif.Seam.C136_inner_corner_partial",
    "Verif.Seam.C136_outer_corner_partial",
    "Verif.Seam.C136_any_corner_partial",
    "Verif.Seam.C136_weighted_corner_partial",
    "Verif.Seam.C136_back_partial",
    "Verif.Seam.C136_corner_counterexample",
    "Verif.Seam.C136_open_nearest",
    "Verif.Seam.C136_open_combing"
   ],
   "note": "Sharpest corners with twice the threshold, for the reason given at C135; the fallback passes as if their reference were still valid."
  },
  {
   "property": "C137",
   "status": "proved",
   "theorems": [
    "Verif.Seam.C137_allowed",
    "Verif.Seam.C137_unchanged"
   ],
   "note": ""
  },
  {
   "property": "C138",
   "status": "proved",
   "theorems": [
    "Verif.Paint.C138_bits",
    "Verif.Paint.C138_independent",
    "Verif.Paint.C138_pixel",
    "Verif.Paint.C138_coordinate",
    "Verif.Paint.C138_value",
    "Verif.Paint.C138_no_feature"
   ],
   "note": "For texture coordinates; how a position gets them is C141."
  },
  {
   "property": "C139",
   "status": "proved",
   "theorems": [
    "Verif.Seam.C139_forward",
    "Verif.Seam.C139_backward",
    "Verif.Seam.C139_zero",
    "Verif.Seam.C139_corner",
    "Verif.Seam.C139_bound_needed"
   ],
   "note": "The lengths of the segments are given, and coordinates are unbounded; the angle between the three points is not computed."
  },
  {
   "property": "C140",
   "status": "proved",
   "theorems": [
    "Verif.Density.C140_rectangle",
    "Verif.Density.C140_nearest",
    "Verif.Density.C140_range",
    "Verif.Density.C140_uniform",
    "Verif.Density.C140_darker",
    "Verif.Density.C140_own_pixel",
    "Verif.Density.C140_covers"
   ],
   "note": "The pixel under a point is among those used if the image is printed without distortion; the code scales first pixels by the width and last pixels by the height."
  },
  {
   "property": "C141",
   "status": "proved",
   "theorems": [
    "Verif.Paint.C141_end",
    "Verif.Paint.C141_segment",
    "Verif.Paint.C141_none"
   ],
   "note": "In exact arithmetic apart from the rounding of projected points, which makes the nearest segment nearest up to two units."
  },
  {
   "property": "C142",
   "status": "partial",
   "theorems": [
    "Verif.Paint.C142_slicer",
    "Verif.Paint.C142_splitter_partial",
    "Verif.Paint.C142_interpolated",
    "Verif.Paint.C142_inside",
    "Verif.Paint.C142_splitter_overflow_counterexample"
   ],
   "note": "Complete for the slicer, in exact arithmetic. For the splitter by materials, only within 26 mm: it is false for larger triangles, as the counterexample shows."
  },
  {
   "property": "C143",
   "status": "proved",
   "theorems": [
    "Verif.Parts.C143_all_contours",
    "Verif.Parts.C143_partition",
    "Verif.Parts.C143_not_empty"
   ],
   "note": "For all trees of contours. That siblings are side by side and children within their parents is a hypothesis, as Clipper makes the tree."
  },
  {
   "property": "C144",
   "status": "proved",
   "theorems": [
    "Verif.Parts.C144_filled",
    "Verif.Parts.C144_surface",
    "Verif.Parts.C144_surface_holes",
    "Verif.Parts.C144_highest"
   ],
   "note": "For outlines that do not cross themselves. What Clipper promises of a union is a hypothesis; stitching of open lines is not modelled."
  }
 ]
}